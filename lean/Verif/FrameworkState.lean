import Verif.Sensitivity

/-!
# The framework object as a state machine

`bootstrap`, `confint`, `p_adjust`, `sensitivity_analysis` and `sensitivity_plot` of a
`DoubleMLFramework` (/repo/doubleml/double_ml_framework.py:551-918) as transitions of the mutable
attributes `_boot_t_stat`, `_boot_method`, `_n_rep_boot` and `_sensitivity_params`.  `_all_cis`, which
is written but never read, is left out.
-/

namespace DML

open Finset

variable {n r : ℕ}

/-- External routines the methods call: `np.argsort`, statsmodels' `multipletests` and scipy's
`minimize_scalar(bounds=(0, 0.9999), method="bounded")`.  Sorting is specified, the other two are
arbitrary functions. -/
structure Ext where
  argsortDesc : ∀ {p : ℕ}, (Fin p → ℝ) → Equiv.Perm (Fin p)
  argsortIdx : ∀ {p : ℕ}, Equiv.Perm (Fin p) → Equiv.Perm (Fin p)
  argsortDesc_spec : ∀ {p : ℕ} (f : Fin p → ℝ), IsDescSort f (argsortDesc f)
  argsortIdx_spec : ∀ {p : ℕ} (σ : Equiv.Perm (Fin p)), IsAscSort σ (argsortIdx σ)
  multipletests : ∀ {p : ℕ}, (Fin p → ℝ) → String → Except Exc (Fin p → ℝ)
  minimize : (ℝ → ℝ) → ℝ

/-- `sensitivity_params` (/repo/doubleml/double_ml_framework.py:608-623). -/
structure SensParams where
  res : List SensRes
  rv : List ℝ
  rva : List ℝ
  cfy : ℝ
  cfd : ℝ
  rho : ℝ
  level : ℝ
  null : List ℝ

/-- A framework object with its mutable attributes. -/
structure RState (n r : ℕ) where
  fw : FW n r
  boot : Option (Boot r) := none
  sens : Option SensParams := none

/-- Arguments of `sensitivity_plot` (/repo/doubleml/double_ml_framework.py:779-791), without
`benchmarks` (taken as `None`). -/
structure PlotArgs where
  idx : PyVal
  value : PyVal
  rho : PyVal
  level : PyVal
  null : PyVal
  includeScenario : PyVal
  fill : PyVal
  bound0 : PyVal
  bound1 : PyVal
  size : PyVal

/-- The data handed to the plotting routine (/repo/doubleml/double_ml_framework.py:905-917). -/
structure PlotData where
  x : List ℝ
  y : List ℝ
  contour : List (List ℝ)
  unadjusted : ℝ
  scenarioX : ℝ
  scenarioY : ℝ
  scenarioValue : ℝ

/-- Method calls.  `W B` are the multipliers drawn if the call asks for `B` bootstrap replications. -/
inductive Op (n r : ℕ)
  | bootstrap (method nRep : PyVal) (W : ∀ B : ℕ, Fin r → Fin B → Fin n → ℝ)
  | confint (joint level : PyVal)
  | pAdjust (method : PyVal)
  | sensitivity (cfy cfd rho level null : PyVal)
  | plot (a : PlotArgs)

/-- Results of method calls. -/
inductive Out
  | self
  | cis (l : List (ℝ × ℝ))
  | pvals (thetas p : List ℝ)
  | plot (d : PlotData)

/-- `_check_bootstrap` (/repo/doubleml/utils/_checks.py:344-355). -/
def checkBootstrap (method nRep : PyVal) : Except Exc (String × ℕ) :=
  match method with
  | .str m =>
    if m ∈ ["Bayes", "normal", "wild"] then
      match nRep.asInt with
      | none => .error .typeError
      | some z => if z < 1 then .error .valueError else .ok (m, z.toNat)
    else .error .valueError
  | _ => .error .valueError

/-- `bootstrap` (/repo/doubleml/double_ml_framework.py:679-711). -/
noncomputable def FW.bootstrap (A : FW n r) (method nRep : PyVal)
    (W : ∀ B : ℕ, Fin r → Fin B → Fin n → ℝ) : Except Exc (Boot r) := do
  let (m, B) ← checkBootstrap method nRep
  if A.cluster.isSome then .error .notImplemented
  else return ⟨B, m, A.blocks.map fun b => b.bootT (W B)⟩

/-- `confint` (/repo/doubleml/double_ml_framework.py:627-677). -/
noncomputable def FW.confint (A : FW n r) (boot : Option (Boot r)) (joint level : PyVal) :
    Except Exc (List (ℝ × ℝ)) :=
  match joint with
  | .bool j =>
    match level with
    | .float l =>
      if l ≤ 0 ∨ l ≥ 1 then .error .valueError
      else if j then
        match boot with
        | none => .error .valueError
        | some bt => .ok (A.blocks.map fun b => b.ci (jointCrit bt l))
      else .ok (A.blocks.map fun b => b.ci fun _ => pointCrit l)
    | _ => .error .typeError
  | _ => .error .typeError

/-- Evaluate a computation for every repetition in order, stopping at the first exception. -/
def seqFin {α : Type} : {r : ℕ} → (Fin r → Except Exc α) → Except Exc (Fin r → α)
  | 0, _ => .ok Fin.elim0
  | _ + 1, f => do
    let a ← f 0
    let t ← seqFin fun i => f i.succ
    return Fin.cons a t

/-- `method.lower() in ["rw", "romano-wolf"]` (/repo/doubleml/double_ml_framework.py:739). -/
def isRW (m : String) : Bool := m.toLower = "rw" || m.toLower = "romano-wolf"

/-- The t statistics of repetition `k`, indexed by parameter. -/
noncomputable def FW.tStats (A : FW n r) (k : Fin r) (i : Fin A.blocks.length) : ℝ :=
  (A.blocks.get i).allT k

/-- The bootstrap statistics of repetition `k`, indexed by draw and parameter. -/
noncomputable def Boot.stats (bt : Boot r) (p : ℕ) (k : Fin r) (j : Fin bt.B) (i : Fin p) : ℝ :=
  (bt.t.getD i fun _ _ => 0) j k

/-- One pass of the loop over repetitions of `p_adjust`
(/repo/doubleml/double_ml_framework.py:736-771). -/
noncomputable def FW.pAdjustRep (E : Ext) (A : FW n r) (boot : Option (Boot r)) (m : String) (k : Fin r) :
    Except Exc (Fin A.blocks.length → ℝ) :=
  if isRW m then
    match boot with
    | none => .error .valueError
    | some bt =>
      let σ := E.argsortDesc fun i => |A.tStats k i|
      .ok (romanoWolf (A.tStats k) (bt.stats _ k) σ (E.argsortIdx σ))
  else E.multipletests (fun i => (A.blocks.get i).allPval k) m

/-- `p_adjust` (/repo/doubleml/double_ml_framework.py:713-777): estimates and median p-values. -/
noncomputable def FW.pAdjust (E : Ext) (A : FW n r) (boot : Option (Boot r)) : PyVal →
    Except Exc (List ℝ × List ℝ)
  | .str m => do
    let all ← seqFin fun k => A.pAdjustRep E boot m k
    return (A.blocks.map Block.theta, List.ofFn fun i => median fun k => all k i)
  | _ => .error .typeError

/-- Null hypotheses per parameter (/repo/doubleml/double_ml_framework.py:591-607). -/
def nullVec (p : ℕ) : PyVal → Except Exc (List PyVal)
  | .float x => .ok (List.replicate p (.float x))
  | .arr a => if a.length = p then .ok (a.map .float) else .error .valueError
  | .iarr a => if a.length = p then .ok (a.map .int) else .error .valueError
  | _ => .error .typeError

/-- `sensitivity_analysis` (/repo/doubleml/double_ml_framework.py:551-625). -/
noncomputable def FW.sensitivityAnalysis (E : Ext) (A : FW n r) (cfy cfd rho level null : PyVal) :
    Except Exc SensParams := do
  let nv ← nullVec A.blocks.length null
  let res ← A.calcSens cfy cfd rho level
  let nulls ← nv.mapM checkFloat
  let (y, d, p, l) ← sensArgs cfy cfd rho level
  let rvs := fun ci => List.zipWith (fun (bs : Block n r × Sens n r) h =>
    E.minimize (rvObjective bs.1 bs.2 A.cluster h p l ci)) (A.blocks.zip (A.sens.getD [])) nulls
  return { res := res, rv := rvs false, rva := rvs true, cfy := y, cfd := d, rho := p, level := l,
           null := nulls }

/-- `np.linspace(0, b, g)`. -/
noncomputable def linspace (b : ℝ) (g : ℕ) : List ℝ := (List.range g).map fun (i : ℕ) => (i : ℝ) * b / ((g : ℝ) - 1)

/-- The argument checks of `sensitivity_plot` up to line 858
(/repo/doubleml/double_ml_framework.py:842-858): index, "is ci", grid bounds, grid size. -/
noncomputable def plotChecks (p : ℕ) (noParams : Bool) (a : PlotArgs) :
    Except Exc (ℕ × Bool × ℝ × ℝ × ℕ) := do
  let idx ← checkInteger a.idx (some 0) (some ((p : ℤ) - 1))
  let ci ← match a.value with
    | .str v => if v = "theta" then .ok false else if v = "ci" then .ok true else .error .valueError
    | _ => .error .typeError
  let _ ← checkFloat a.null
  let inc ← checkBool a.includeScenario
  if inc && noParams then .error .valueError
  else
    let _ ← checkBool a.fill
    let b0 ← checkInZeroOne a.bound0 false false
    let b1 ← checkInZeroOne a.bound1 false false
    let g ← checkInteger a.size (some 10) none
    return (idx.toNat, ci, b0, b1, g.toNat)

/-- `sens_dict[value][bound][idx_treatment]` (/repo/doubleml/double_ml_framework.py:879,915). -/
def pickRes (l : List SensRes) (idx : ℕ) (ci up : Bool) : ℝ := ((l[idx]?).map fun s => s.get ci up).getD 0

/-- One cell of the contour matrix (/repo/doubleml/double_ml_framework.py:872-879). -/
noncomputable def FW.contourCell (A : FW n r) (idx : ℕ) (ci up : Bool) (rho level : PyVal) (x y : ℝ) :
    Except Exc ℝ := do
  let l ← A.calcSens (.float y) (.float x) rho level
  return pickRes l idx ci up

/-- `sensitivity_plot` (/repo/doubleml/double_ml_framework.py:779-918) with `benchmarks=None`.  Line 860
replaces the argument `null_hypothesis` by the stored one; subscripting `None` is a `TypeError`. -/
noncomputable def FW.sensitivityPlot (A : FW n r) (sens : Option SensParams) (a : PlotArgs) :
    Except Exc PlotData := do
  let (idx, ci, b0, b1, g) ← plotChecks A.blocks.length sens.isNone a
  match sens with
  | none => .error .typeError
  | some sp =>
    let null := sp.null.getD idx 0
    match A.blocks[idx]? with
    | none => .error .indexError
    | some b =>
      let up := useUpper null b.theta
      let contour ← (linspace b0 g).mapM fun x =>
        (linspace b1 g).mapM fun y => A.contourCell idx ci up a.rho a.level x y
      let unadj := if ci then
          (if up then (b.ci fun _ => pointCrit sp.level).2 else (b.ci fun _ => pointCrit sp.level).1)
        else b.theta
      return { x := linspace b0 g, y := linspace b1 g, contour := contour, unadjusted := unadj,
               scenarioX := sp.cfd, scenarioY := sp.cfy, scenarioValue := pickRes sp.res idx ci up }

/-- One method call: new state and result or exception. -/
noncomputable def RState.step (E : Ext) (s : RState n r) : Op n r → RState n r × Except Exc Out
  | .bootstrap m k W =>
    match s.fw.bootstrap m k W with
    | .ok b => ({ s with boot := some b }, .ok .self)
    | .error e => (s, .error e)
  | .confint j l => (s, (s.fw.confint s.boot j l).map .cis)
  | .pAdjust m => (s, (s.fw.pAdjust E s.boot m).map fun p => .pvals p.1 p.2)
  | .sensitivity y d p l h =>
    match s.fw.sensitivityAnalysis E y d p l h with
    | .ok q => ({ s with sens := some q }, .ok .self)
    | .error e => (s, .error e)
  | .plot a => (s, (s.fw.sensitivityPlot s.sens a).map .plot)

/-- A history of calls. -/
noncomputable def RState.run (E : Ext) (s : RState n r) : List (Op n r) → RState n r
  | [] => s
  | o :: os => RState.run E (s.step E o).1 os

end DML
