import Verif.LimitLinear
import Mathlib.Analysis.Calculus.Deriv.Inv
import Mathlib.Analysis.SpecialFunctions.Sqrt

/-!
# Large samples: bounds of a coefficient under confounding

The coefficient of a regression without constant of residuals `u` on residuals `v`, the bound `√(σ² ν²)` of its bias, and the spread of the
scores that belong to their sums and differences.  Nothing here models code of the package.
-/

namespace DML

open MeasureTheory ProbabilityTheory Filter Topology
open scoped ENNReal

variable {Ω : Type*} {mΩ : MeasurableSpace Ω} {P : Measure Ω} {S : Type*} [MeasurableSpace S] {W : ℕ → Ω → S}

/-- Influence function of the coefficient: residual of the treatment times the error, over the variance of the former. -/
noncomputable def coefIF (μ : Measure S) (ε v : S → ℝ) (w : S) : ℝ := v w * ε w / ∫ w, v w ^ 2 ∂μ

/-- The bound of the bias per unit of confounding strength: standard deviation of the error over that of the residual of the treatment. -/
noncomputable def biasBound (μ : Measure S) (ε v : S → ℝ) : ℝ := Real.sqrt ((∫ w, ε w ^ 2 ∂μ) / ∫ w, v w ^ 2 ∂μ)

/-- Influence function of the bound of the bias. -/
noncomputable def biasIF (μ : Measure S) (ε v : S → ℝ) (w : S) : ℝ :=
  (ε w ^ 2 / (∫ w, v w ^ 2 ∂μ) - (∫ w, ε w ^ 2 ∂μ) * v w ^ 2 / (∫ w, v w ^ 2 ∂μ) ^ 2) / (2 * biasBound μ ε v)

/-- Asymptotic standard deviation of the coefficient plus `e` times the bound of the bias. -/
noncomputable def boundSd (μ : Measure S) (ε v : S → ℝ) (e : ℝ) : ℝ := Real.sqrt (∫ w, (coefIF μ ε v w + e * biasIF μ ε v w) ^ 2 ∂μ)

/-- The coefficient. -/
noncomputable def ratioCoef {n : ℕ} (uv vv : Fin n → ℝ) : ℝ := mean uv / mean vv

/-- The mean squared error. -/
noncomputable def ratioVar {n : ℕ} (uu uv vv : Fin n → ℝ) : ℝ := mean uu - ratioCoef uv vv * mean uv

/-- The bound of the bias. -/
noncomputable def ratioBias {n : ℕ} (uu uv vv : Fin n → ℝ) : ℝ := Real.sqrt (ratioVar uu uv vv * (mean vv)⁻¹)

/-- Minus the score of the coefficient plus `e` times the score of the bound of the bias. -/
noncomputable def ratioScore {n : ℕ} (uu uv vv : Fin n → ℝ) (e : ℝ) (i : Fin n) : ℝ :=
  -(mean vv)⁻¹ * (uv i - ratioCoef uv vv * vv i) + e * (((mean vv)⁻¹ * (uu i - 2 * ratioCoef uv vv * uv i + ratioCoef uv vv ^ 2 * vv i) -
    ratioVar uu uv vv * (mean vv)⁻¹ ^ 2 * vv i) / (2 * ratioBias uu uv vv))

/-- Products of residuals that behave like those of `u = ε + θ v` and `v`. -/
structure RatioParts (P : Measure Ω) (W : ℕ → Ω → S) (uu uv vv : ∀ n, Ω → Fin n → ℝ) (ε v : S → ℝ) (θ : ℝ) : Prop where
  uuLin : LinExp P W (fun n ω => mean (uu n ω)) (∫ w, (ε w + θ * v w) ^ 2 ∂(P.map (W 0)))
    fun w => (ε w + θ * v w) ^ 2 - ∫ w, (ε w + θ * v w) ^ 2 ∂(P.map (W 0))
  uvLin : LinExp P W (fun n ω => mean (uv n ω)) (∫ w, (ε w + θ * v w) * v w ∂(P.map (W 0)))
    fun w => (ε w + θ * v w) * v w - ∫ w, (ε w + θ * v w) * v w ∂(P.map (W 0))
  vvLin : LinExp P W (fun n ω => mean (vv n ω)) (∫ w, v w ^ 2 ∂(P.map (W 0))) fun w => v w ^ 2 - ∫ w, v w ^ 2 ∂(P.map (W 0))
  uuClose : Close P W uu fun w => (ε w + θ * v w) ^ 2
  uvClose : Close P W uv fun w => (ε w + θ * v w) * v w
  vvClose : Close P W vv fun w => v w ^ 2
  cross : ∫ w, (ε w + θ * v w) * v w ∂(P.map (W 0)) = θ * ∫ w, v w ^ 2 ∂(P.map (W 0))
  total : ∫ w, (ε w + θ * v w) ^ 2 ∂(P.map (W 0)) = ∫ w, ε w ^ 2 ∂(P.map (W 0)) + θ ^ 2 * ∫ w, v w ^ 2 ∂(P.map (W 0))
  posE : 0 < ∫ w, ε w ^ 2 ∂(P.map (W 0))
  posV : 0 < ∫ w, v w ^ 2 ∂(P.map (W 0))

namespace RatioParts

variable [IsProbabilityMeasure P] {uu uv vv : ∀ n, Ω → Fin n → ℝ} {ε v : S → ℝ} {θ : ℝ}

theorem inv (hW : Iid P W) (h : RatioParts P W uu uv vv ε v θ) : LinExp P W (fun n ω => (mean (vv n ω))⁻¹) (∫ w, v w ^ 2 ∂(P.map (W 0)))⁻¹
    fun w => -((∫ w, v w ^ 2 ∂(P.map (W 0))) ^ 2)⁻¹ * (v w ^ 2 - ∫ w, v w ^ 2 ∂(P.map (W 0))) :=
  h.vvLin.map hW (hasDerivAt_inv h.posV.ne')

theorem coef (hW : Iid P W) (h : RatioParts P W uu uv vv ε v θ) :
    LinExp P W (fun n ω => ratioCoef (uv n ω) (vv n ω)) θ (coefIF (P.map (W 0)) ε v) := by
  refine (h.uvLin.mul hW (h.inv hW)).congr (fun n ω => div_eq_mul_inv _ _) ?_ fun w => ?_
  · rw [h.cross, mul_inv_cancel_right₀ h.posV.ne']
  · unfold coefIF
    rw [h.cross]
    have := h.posV.ne'
    generalize ∫ w, v w ^ 2 ∂(P.map (W 0)) = δ at *
    field_simp
    ring

theorem var (hW : Iid P W) (h : RatioParts P W uu uv vv ε v θ) :
    LinExp P W (fun n ω => ratioVar (uu n ω) (uv n ω) (vv n ω)) (∫ w, ε w ^ 2 ∂(P.map (W 0))) fun w => ε w ^ 2 - ∫ w, ε w ^ 2 ∂(P.map (W 0)) := by
  refine (LinExp.comb 1 (-1) h.uuLin ((h.coef hW).mul hW h.uvLin)).congr (fun n ω => ?_) ?_ fun w => ?_
  · unfold ratioVar
    ring
  · rw [h.cross, h.total]
    ring
  · unfold coefIF
    rw [h.cross, h.total]
    have := h.posV.ne'
    generalize ∫ w, v w ^ 2 ∂(P.map (W 0)) = δ at *
    field_simp
    ring

omit [IsProbabilityMeasure P] in
theorem bound_pos (h : RatioParts P W uu uv vv ε v θ) : 0 < biasBound (P.map (W 0)) ε v := Real.sqrt_pos.2 (div_pos h.posE h.posV)

theorem bias (hW : Iid P W) (h : RatioParts P W uu uv vv ε v θ) :
    LinExp P W (fun n ω => ratioBias (uu n ω) (uv n ω) (vv n ω)) (biasBound (P.map (W 0)) ε v) (biasIF (P.map (W 0)) ε v) := by
  refine (((h.var hW).mul hW (h.inv hW)).map hW (Real.hasDerivAt_sqrt (mul_pos h.posE (inv_pos.2 h.posV)).ne')).congr (fun n ω => rfl) ?_
    fun w => ?_
  · unfold biasBound
    rw [div_eq_mul_inv]
  · have hb : Real.sqrt ((∫ w, ε w ^ 2 ∂(P.map (W 0))) * (∫ w, v w ^ 2 ∂(P.map (W 0)))⁻¹) = biasBound (P.map (W 0)) ε v := by
      unfold biasBound
      rw [div_eq_mul_inv]
    rw [hb]
    unfold biasIF
    have h1 := h.posV.ne'
    have h2 := h.bound_pos.ne'
    generalize ∫ w, v w ^ 2 ∂(P.map (W 0)) = δ at *
    generalize biasBound (P.map (W 0)) ε v = β at *
    field_simp
    ring

omit [IsProbabilityMeasure P] in
theorem lin_oP {X : ℕ → Ω → ℝ} {x : ℝ} (a : ℝ) (h : oP P fun n ω => X n ω - x) : oP P fun n ω => a * X n ω - a * x :=
  (h.const_mul a).mono (Eventually.of_forall fun n ω => le_of_eq (congrArg _ (by ring)))

theorem close_score (hW : Iid P W) {i t s q : ℕ → Ω → ℝ} {i0 t0 s0 q0 : ℝ} (hi : oP P fun n ω => i n ω - i0) (ht : oP P fun n ω => t n ω - t0)
    (hs : oP P fun n ω => s n ω - s0) (hq : oP P fun n ω => q n ω - q0) {a b c : ∀ n, Ω → Fin n → ℝ} {a0 b0 c0 : S → ℝ}
    (ha : Close P W a a0) (hb : Close P W b b0) (hc : Close P W c c0) :
    Close P W (fun n ω j => -i n ω * (b n ω j - t n ω * c n ω j) + (q n ω * (a n ω j - 2 * t n ω * b n ω j + t n ω ^ 2 * c n ω j) -
      s n ω * i n ω * q n ω * c n ω j)) fun w => -i0 * (b0 w - t0 * c0 w) + (q0 * (a0 w - 2 * t0 * b0 w + t0 ^ 2 * c0 w) - s0 * i0 * q0 * c0 w) := by
  have c1 := ha.scale hW hq
  have c2 := hb.scale hW (lin_oP (-1) hi)
  have c3 := hb.scale hW (lin_oP (-2) (ht.mul_sub hq))
  have c4 := hc.scale hW (hi.mul_sub ht)
  have c5 := hc.scale hW (ht.mul_sub (ht.mul_sub hq))
  have c6 := hc.scale hW (lin_oP (-1) (hs.mul_sub (hi.mul_sub hq)))
  exact (((((c1.add c2).add c3).add c4).add c5).add c6).congr (fun n ω j => by ring) fun w => by ring

/-- The scores. -/
theorem score (hW : Iid P W) (h : RatioParts P W uu uv vv ε v θ) (e : ℝ) :
    Close P W (fun n ω => ratioScore (uu n ω) (uv n ω) (vv n ω) e) fun w => -coefIF (P.map (W 0)) ε v w + e * biasIF (P.map (W 0)) ε v w := by
  have hi := (h.inv hW).tends hW
  have h2 : (2 : ℝ) * biasBound (P.map (W 0)) ε v ≠ 0 := mul_ne_zero two_ne_zero h.bound_pos.ne'
  have hc : ContinuousAt (fun x : ℝ => (2 * x)⁻¹) (biasBound (P.map (W 0)) ε v) := by fun_prop (disch := assumption)
  have hb := ((h.bias hW).tends hW).continuousAt hc
  refine (close_score hW hi ((h.coef hW).tends hW) ((h.var hW).tends hW) (lin_oP e (hi.mul_sub hb)) h.uuClose h.uvClose h.vvClose).congr
    (fun n ω i => ?_) fun w => ?_
  · unfold ratioScore
    rw [div_eq_mul_inv]
    ring
  · unfold coefIF biasIF
    simp only [div_eq_mul_inv]
    generalize ∫ w, v w ^ 2 ∂(P.map (W 0)) = δ
    generalize biasBound (P.map (W 0)) ε v = β
    generalize ∫ w, ε w ^ 2 ∂(P.map (W 0)) = σ
    simp only [← inv_pow]
    ring

/-- One-sided confidence limits from these scores: the standard errors of the two ends are exchanged. -/
theorem limits {r : ℕ} (hr : 0 < r) (hW : Iid P W) {uu uv vv : Fin r → ∀ n, Ω → Fin n → ℝ} (h : ∀ k, RatioParts P W (uu k) (uv k) (vv k) ε v θ)
    (e : ℝ) (hsd : boundSd (P.map (W 0)) ε v e ≠ 0) (z : ℝ) :
    ProbTends P (fun n => {ω | median (fun k => ratioCoef (uv k n ω) (vv k n ω) + e * ratioBias (uu k n ω) (uv k n ω) (vv k n ω) -
      z * Real.sqrt (1 / n * mean fun i => ratioScore (uu k n ω) (uv k n ω) (vv k n ω) e i ^ 2)) ≤ θ + e * biasBound (P.map (W 0)) ε v})
      (Phi (z * boundSd (P.map (W 0)) ε v (-e) / boundSd (P.map (W 0)) ε v e)) ∧
    ProbTends P (fun n => {ω | θ + e * biasBound (P.map (W 0)) ε v ≤ median fun k =>
      ratioCoef (uv k n ω) (vv k n ω) + e * ratioBias (uu k n ω) (uv k n ω) (vv k n ω) +
      z * Real.sqrt (1 / n * mean fun i => ratioScore (uu k n ω) (uv k n ω) (vv k n ω) e i ^ 2)})
      (Phi (z * boundSd (P.map (W 0)) ε v (-e) / boundSd (P.map (W 0)) ε v e)) := by
  refine limit_cover hr hW (χ := fun w => coefIF (P.map (W 0)) ε v w + e * biasIF (P.map (W 0)) ε v w)
    (fun k => (LinExp.comb 1 e ((h k).coef hW) ((h k).bias hW)).congr (fun n ω => by rw [one_mul]) (by rw [one_mul]) fun w => by rw [one_mul])
    (fun k => ?_) (lt_of_le_of_ne (Real.sqrt_nonneg _) (Ne.symm hsd)) (Real.sq_sqrt (integral_nonneg fun w => sq_nonneg _)) z
  have h1 := (((h k).score hW e).square_tends hW).continuousAt (f := Real.sqrt) Real.continuous_sqrt.continuousAt
  have e1 : boundSd (P.map (W 0)) ε v (-e) = Real.sqrt (∫ w, (-coefIF (P.map (W 0)) ε v w + e * biasIF (P.map (W 0)) ε v w) ^ 2 ∂(P.map (W 0))) := by
    unfold boundSd
    congr 2
    funext w
    ring
  rw [e1]
  refine h1.mono ?_
  filter_upwards [eventually_gt_atTop 0] with n hn ω
  refine le_of_eq (congrArg _ (congrArg (· - _) ?_))
  have h3 : (0 : ℝ) < n := by exact_mod_cast hn
  rw [← Real.sqrt_mul h3.le, ← mul_assoc, mul_one_div, div_self h3.ne', one_mul]

end RatioParts

end DML
