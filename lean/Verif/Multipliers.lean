import Verif.FrameworkState
import Mathlib.Probability.Distributions.Exponential
import Mathlib.Probability.Distributions.Gaussian.Real
import Mathlib.Probability.Independence.Basic

/-!
# The multipliers of the bootstrap

`_draw_weights` computes the multipliers from draws of numpy's generator.  A draw for one observation is a triple: an
exponential and two normal numbers, of which each method uses those it needs.
-/

namespace DML

open MeasureTheory ProbabilityTheory

variable {n r : ℕ}

/-- The numbers drawn for one observation: exponential with scale one, standard normal, standard normal. -/
abbrev RawDraw : Type := ℝ × ℝ × ℝ

/-- `_draw_weights(method, n_rep_boot, n_obs)` (/repo/doubleml/utils/_estimation.py:173-185). -/
noncomputable def drawWeights {B : ℕ} (method : String) (raw : Fin B → Fin n → RawDraw) : Except Exc (Fin B → Fin n → ℝ) :=
  if method = "Bayes" then .ok fun b i => (raw b i).1 - 1
  else if method = "normal" then .ok fun b i => (raw b i).2.1
  else if method = "wild" then .ok fun b i => (raw b i).2.1 / Real.sqrt 2 + ((raw b i).2.2 ^ 2 - 1) / 2
  else .error .valueError

/-- `bootstrap` (/repo/doubleml/double_ml_framework.py:679-711) with the draws of numpy's generator: the multipliers of
every repetition are drawn anew. -/
noncomputable def FW.bootstrapRaw (A : FW n r) (method nRep : PyVal) (raw : ∀ B : ℕ, Fin r → Fin B → Fin n → RawDraw) :
    Except Exc (Boot r) := do
  let (m, B) ← checkBootstrap method nRep
  if A.cluster.isSome then .error .notImplemented
  else
    let W ← (List.finRange r).mapM fun k => drawWeights m (raw B k)
    return ⟨B, m, A.blocks.map fun b => b.bootT fun k => (W[k.val]?).getD fun _ _ => 0⟩

/-! ## Numpy's generator -/

/-- The law of one draw. -/
noncomputable def rawLaw : Measure RawDraw := (expMeasure 1).prod ((gaussianReal 0 1).prod (gaussianReal 0 1))

/-- Contract of numpy's generator: the draws are random variables on a probability space, independent and with the law
asked for. -/
structure NpDraws {Ω : Type} [MeasurableSpace Ω] (μ : Measure Ω) {B : ℕ} (raw : Fin r → Fin B → Fin n → Ω → RawDraw) : Prop where
  meas : ∀ k b i, Measurable (raw k b i)
  law : ∀ k b i, μ.map (raw k b i) = rawLaw
  indep : iIndepFun (fun q : Fin r × Fin B × Fin n => raw q.1 q.2.1 q.2.2) μ

end DML
