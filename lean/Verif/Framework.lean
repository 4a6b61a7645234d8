import Verif.Stats
import Verif.Normal
import Verif.Py
import Verif.VarEst

/-!
# `DoubleMLFramework`

Model of /repo/doubleml/double_ml_framework.py: the object that carries estimates, standard errors
and scaled scores, its arithmetic, `concat`, confidence intervals and bootstrap.

Layout.  numpy arrays `thetas (p,)`, `all_thetas (p, r)`, `scaled_psi (n, p, r)` … are stored
per parameter: a `Block n r` is the slice belonging to one parameter and a framework is a list of
blocks, so that `np.concatenate` over the parameter axis is list append and elementwise operations
over the parameter axis are `zipWith`.
-/

namespace DML

open Finset

/-- The slice of a framework belonging to one parameter
(/repo/doubleml/double_ml_framework.py:54-59): `thetas[i]`, `ses[i]`, `all_thetas[i,:]`,
`all_ses[i,:]`, `var_scaling_factors[i]`, `scaled_psi[:,i,:]`. -/
@[ext] structure Block (n r : ℕ) where
  theta : ℝ
  se : ℝ
  allTheta : Fin r → ℝ
  allSe : Fin r → ℝ
  vsf : ℝ
  psi : Fin n → Fin r → ℝ

/-- Sensitivity elements of one parameter (/repo/doubleml/double_ml_framework.py:958-968):
`max_bias[0,i,:]`, `psi_max_bias[:,i,:]`. -/
@[ext] structure Sens (n r : ℕ) where
  maxBias : Fin r → ℝ
  psiMaxBias : Fin n → Fin r → ℝ

/-- Benchmark elements of one parameter (/repo/doubleml/double_ml_framework.py:984-1009):
`sigma2[0,i,:]`, `nu2[0,i,:]`. -/
@[ext] structure Bench (r : ℕ) where
  sigma2 : Fin r → ℝ
  nu2 : Fin r → ℝ

/-- `cluster_dict` (/repo/doubleml/double_ml_framework.py:931): one `ClusterRep` per repetition. -/
abbrev ClusterInfo (n r : ℕ) := Fin r → ClusterRep n

/-- The immutable part of a `DoubleMLFramework` with `n` observations and `r` repetitions
(/repo/doubleml/double_ml_framework.py:35-77).  `cluster = some _` iff `_is_cluster_data`,
`sens = some _` iff `_sensitivity_implemented`, `bench = some _` iff `_benchmark_available`. -/
@[ext] structure FW (n r : ℕ) where
  blocks : List (Block n r)
  cluster : Option (ClusterInfo n r) := none
  sens : Option (List (Sens n r)) := none
  bench : Option (List (Bench r)) := none
  names : Option (List String) := none

variable {n r : ℕ}

/-- The constraint of `_check_sensitivity_benchmark`
(/repo/doubleml/double_ml_framework.py:994-996): no negative `sigma2` or `nu2`. -/
def Bench.ok (b : Bench r) : Prop := (∀ k, 0 ≤ b.sigma2 k) ∧ ∀ k, 0 ≤ b.nu2 k

/-- `_check_framework_shapes` (/repo/doubleml/double_ml_framework.py:1013-1049).  The shape facts
about observations and repetitions hold by typing; what remains is the length along the parameter
axis. -/
def FW.shapesOk (A : FW n r) : Prop :=
  (∀ s ∈ A.sens, s.length = A.blocks.length) ∧
  (A.sens.isSome → ∀ b ∈ A.bench, b.length = A.blocks.length)

/-- Benchmark elements are only kept when sensitivity elements are present
(/repo/doubleml/double_ml_framework.py:948-980). -/
def FW.normBench (A : FW n r) : FW n r :=
  { A with bench := if A.sens.isSome then A.bench else none }

open Classical in
/-- The constructor `DoubleMLFramework(doubleml_dict)`
(/repo/doubleml/double_ml_framework.py:35-77): benchmark sign check, shape check, names check. -/
noncomputable def FW.construct (A : FW n r) : Except Exc (FW n r) :=
  if ∃ bs ∈ A.normBench.bench, ∃ b ∈ bs, ¬ b.ok then .error .valueError
  else if ¬ A.normBench.shapesOk then .error .valueError
  else if ∃ ns ∈ A.normBench.names, ns.length ≠ A.normBench.blocks.length then .error .valueError
  else .ok A.normBench

/-- `np.allclose(a, b)` on scalars with numpy's default tolerances. -/
def allclose (a b : ℝ) : Prop := |a - b| ≤ 1e-8 + 1e-5 * |b|

/-- The standard error of one repetition as `__add__`/`__sub__` recompute it
(/repo/doubleml/double_ml_framework.py:310-311). -/
noncomputable def recomputedSe (psi : Fin n → Fin r → ℝ) (vsf : ℝ) (k : Fin r) : ℝ :=
  Real.sqrt ((mean fun i => psi i k ^ 2) / vsf)

/-- One parameter of `__add__` (/repo/doubleml/double_ml_framework.py:303-312). -/
noncomputable def Block.add (a b : Block n r) : Block n r :=
  let allTheta := fun k => a.allTheta k + b.allTheta k
  let psi := fun i k => a.psi i k + b.psi i k
  let allSe := recomputedSe psi a.vsf
  { theta := aggTheta allTheta
    se := aggSe allTheta allSe fun _ => a.vsf
    allTheta := allTheta, allSe := allSe, vsf := a.vsf, psi := psi }

/-- One parameter of `__sub__` (/repo/doubleml/double_ml_framework.py:351-362). -/
noncomputable def Block.sub (a b : Block n r) : Block n r :=
  let allTheta := fun k => a.allTheta k - b.allTheta k
  let psi := fun i k => a.psi i k - b.psi i k
  let allSe := recomputedSe psi a.vsf
  { theta := aggTheta allTheta
    se := aggSe allTheta allSe fun _ => a.vsf
    allTheta := allTheta, allSe := allSe, vsf := a.vsf, psi := psi }

/-- One parameter of `__mul__` (/repo/doubleml/double_ml_framework.py:397-404): note that `ses` and
`all_ses` are multiplied by the scalar itself, not by its absolute value. -/
noncomputable def Block.smul (c : ℝ) (a : Block n r) : Block n r :=
  { theta := c * a.theta
    se := c * a.se
    allTheta := fun k => c * a.allTheta k
    allSe := fun k => c * a.allSe k
    vsf := a.vsf
    psi := fun i k => c * a.psi i k }

/-- Sensitivity elements under `__add__` and `__sub__`
(/repo/doubleml/double_ml_framework.py:325-332,376-382): both *add* the bias bounds. -/
def Sens.add (a b : Sens n r) : Sens n r :=
  { maxBias := fun k => a.maxBias k + b.maxBias k
    psiMaxBias := fun i k => a.psiMaxBias i k + b.psiMaxBias i k }

/-- Sensitivity elements of a sum or difference are set iff both operands have them
(/repo/doubleml/double_ml_framework.py:325,374). -/
def sensBin : Option (List (Sens n r)) → Option (List (Sens n r)) → Option (List (Sens n r))
  | some s, some t => some (List.zipWith Sens.add s t)
  | _, _ => none

/-- Sensitivity elements under `__mul__` (/repo/doubleml/double_ml_framework.py:420-425). -/
noncomputable def Sens.smul (c : ℝ) (a : Sens n r) : Sens n r :=
  { maxBias := fun k => |c| * a.maxBias k
    psiMaxBias := fun i k => |c| * a.psiMaxBias i k }

/-- Benchmark elements under `__mul__` (/repo/doubleml/double_ml_framework.py:426-432). -/
def Bench.smul (c : ℝ) (a : Bench r) : Bench r :=
  { sigma2 := a.sigma2, nu2 := fun k => c ^ 2 * a.nu2 k }

/-- `_check_framework_compatibility` (/repo/doubleml/utils/_checks.py:358-383) for frameworks that
agree in observations and repetitions (the other case is handled in `Framework.bin`). -/
def FW.compatible (A B : FW n r) (checkTreatments : Bool) : Prop :=
  (checkTreatments → A.blocks.length = B.blocks.length) ∧ A.cluster.isSome = B.cluster.isSome

open Classical in
/-- Common code of `__add__` and `__sub__` (/repo/doubleml/double_ml_framework.py:296-339,344-389):
shape checks, compatibility, assertion on the scaling factors, elementwise operation, constructor.
Treatment names and benchmark elements are dropped, the cluster information of `self` is kept. -/
noncomputable def FW.bin (op : Block n r → Block n r → Block n r) (A B : FW n r) :
    Except Exc (FW n r) :=
  if ¬ A.shapesOk then .error .valueError
  else if ¬ B.shapesOk then .error .valueError
  else if ¬ A.compatible B true then .error .valueError
  else if ¬ (∀ p ∈ A.blocks.zip B.blocks, allclose p.1.vsf p.2.vsf) then .error .assertion
  else FW.construct
    { blocks := List.zipWith op A.blocks B.blocks
      cluster := A.cluster
      sens := sensBin A.sens B.sens
      bench := none
      names := none }

/-- `A + B` (/repo/doubleml/double_ml_framework.py:296-339). -/
noncomputable def FW.add (A B : FW n r) : Except Exc (FW n r) := FW.bin Block.add A B

/-- `A - B` (/repo/doubleml/double_ml_framework.py:344-389). -/
noncomputable def FW.sub (A B : FW n r) : Except Exc (FW n r) := FW.bin Block.sub A B

/-- `c * A` and `A * c` for a number `c` (/repo/doubleml/double_ml_framework.py:395-441). -/
noncomputable def FW.smul (c : ℝ) (A : FW n r) : Except Exc (FW n r) :=
  FW.construct
    { blocks := A.blocks.map (Block.smul c)
      cluster := A.cluster
      sens := A.sens.map (List.map (Sens.smul c))
      bench := A.bench.map (List.map (Bench.smul c))
      names := none }

open Classical in
/-- `concat([A, ...])` (/repo/doubleml/double_ml_framework.py:1069-1125) for frameworks that agree in
observations and repetitions.  Sensitivity (benchmark) elements survive iff every operand has them. -/
noncomputable def FW.concat : List (FW n r) → Except Exc (FW n r)
  | [] => .error .typeError
  | A :: As =>
    if ∃ B ∈ A :: As, ¬ B.shapesOk then .error .valueError
    else if ∃ B ∈ As, ¬ A.compatible B false then .error .valueError
    else if ∃ B ∈ A :: As, B.cluster.isSome then .error .notImplemented
    else FW.construct
      { blocks := ((A :: As).map FW.blocks).flatten
        cluster := none
        sens := if ∀ B ∈ A :: As, B.sens.isSome then
            some ((A :: As).map fun B => B.sens.getD []).flatten else none
        bench := if ∀ B ∈ A :: As, B.sens.isSome ∧ B.bench.isSome then
            some ((A :: As).map fun B => B.bench.getD []).flatten else none
        names := none }

/-! ## Dynamic dimensions -/

/-- A framework with its dimensions `n_obs` and `n_rep`. -/
structure Framework where
  n : ℕ
  r : ℕ
  fw : FW n r

/-- A right operand of `+`, `-`: a framework or any other Python object. -/
inductive Operand
  | fw (A : Framework)
  | other (v : PyVal)

/-- `__add__`/`__sub__` with operands of arbitrary dimensions
(/repo/doubleml/double_ml_framework.py:296-301 with utils/_checks.py:359-369).  The shape checks of
the operands come first, then the number of observations, then the number of repetitions. -/
noncomputable def Framework.bin
    (op : ∀ {n r : ℕ}, Block n r → Block n r → Block n r) (A : Framework) :
    Operand → Except Exc Framework
  | .other _ => .error .typeError
  | .fw B =>
    if h : A.n = B.n ∧ A.r = B.r then do
      let C ← FW.bin op A.fw (h.1 ▸ h.2 ▸ B.fw)
      return ⟨A.n, A.r, C⟩
    else .error .valueError

/-- `__mul__` with an arbitrary right operand (/repo/doubleml/double_ml_framework.py:395-437); Python
`bool` is a subclass of `int`. -/
noncomputable def Framework.mul (A : Framework) : Operand → Except Exc Framework
  | .other (.float c) => do return ⟨A.n, A.r, ← A.fw.smul c⟩
  | .other (.int z) => do return ⟨A.n, A.r, ← A.fw.smul z⟩
  | .other (.bool b) => do return ⟨A.n, A.r, ← A.fw.smul (if b then 1 else 0)⟩
  | _ => .error .typeError

/-! ## Inference -/

/-- `all_t_stats` (/repo/doubleml/double_ml_framework.py:136-140).  numpy gives `inf`/`nan` where a
standard error is `0`; theorems about t statistics carry `≠ 0`. -/
noncomputable def Block.allT (b : Block n r) (k : Fin r) : ℝ := b.allTheta k / b.allSe k

/-- `t_stats` (/repo/doubleml/double_ml_framework.py:129-133). -/
noncomputable def Block.t (b : Block n r) : ℝ := b.theta / b.se

/-- `all_pvals` (/repo/doubleml/double_ml_framework.py:152-157). -/
noncomputable def Block.allPval (b : Block n r) (k : Fin r) : ℝ := 2 * (1 - Phi |b.allT k|)

/-- `pvals` (/repo/doubleml/double_ml_framework.py:143-149): median over the repetitions. -/
noncomputable def Block.pval (b : Block n r) : ℝ := median b.allPval

/-- Lower and upper confidence limit of one parameter for given critical values per repetition
(/repo/doubleml/double_ml_framework.py:666-671). -/
noncomputable def Block.ci (b : Block n r) (crit : Fin r → ℝ) : ℝ × ℝ :=
  (median fun k => b.allTheta k - b.allSe k * crit k,
   median fun k => b.allTheta k + b.allSe k * crit k)

/-- The critical value of pointwise intervals (/repo/doubleml/double_ml_framework.py:653-663). -/
noncomputable def pointCrit (level : ℝ) : ℝ := ppf (1 - (1 - level) / 2)

/-- The bootstrap t statistics of one parameter, `boot_t_stat[:, i, k]`, for multiplier weights
`W k : (B, n)` drawn in repetition `k` (/repo/doubleml/double_ml_framework.py:703-709). -/
noncomputable def Block.bootT {B : ℕ} (b : Block n r) (W : Fin r → Fin B → Fin n → ℝ) :
    Fin B → Fin r → ℝ :=
  fun j k => ∑ i, W k j i * (b.psi i k / (b.vsf * b.allSe k))

/-- A bootstrap result: number of draws, method, and one `(B, r)` array per parameter
(`_n_rep_boot`, `_boot_method`, `_boot_t_stat`). -/
structure Boot (r : ℕ) where
  B : ℕ
  method : String
  t : List (Fin B → Fin r → ℝ)

/-- Maximum of a list of absolute values (`np.amax(np.abs(...), axis=1)`,
/repo/doubleml/double_ml_framework.py:660); entries are nonnegative, so folding from `0` is the
maximum of a nonempty list. -/
noncomputable def maxList (l : List ℝ) : ℝ := l.foldr max 0

/-- The joint critical value of repetition `k` (/repo/doubleml/double_ml_framework.py:660-661). -/
noncomputable def jointCrit (bt : Boot r) (level : ℝ) (k : Fin r) : ℝ :=
  quantile (fun j : Fin bt.B => maxList (bt.t.map fun t => |t j k|)) level

end DML
