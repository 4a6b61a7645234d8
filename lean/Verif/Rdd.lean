import Mathlib.Algebra.Order.Floor.Ring
import Verif.Normal
import Verif.Stats
import Verif.Framework
import Verif.Splitting
import Verif.CrossFit

/-!
# Regression discontinuity designs

`RDFlex` of /repo/doubleml/rdd/rdd.py.  The package `rdrobust` is external: `RdExt` holds its two functions
as arbitrary functions.  Learners are arbitrary deterministic functions of their weighted training rows.
`NaN` is `none`.
-/

namespace DML

variable {n r : ℕ}

/-! ## Numeric types of columns -/

/-- The numpy types a numeric or boolean column of a data frame has. -/
inductive Dtype | float | int | bool
  deriving DecidableEq

/-- The value an array of the given type holds after a real number is assigned to one of its entries:
floats are kept, integer arrays truncate toward zero, boolean arrays store whether the number is non-zero. -/
noncomputable def Dtype.cast : Dtype → ℝ → ℝ
  | .float, v => v
  | .int, v => if 0 ≤ v then (⌊v⌋ : ℝ) else (⌈v⌉ : ℝ)
  | .bool, v => if v = 0 then 0 else 1

/-- An entry of `np.full_like(outcome, fill_value=np.nan)` (/repo/doubleml/rdd/rdd.py:427): `nan` cast to
`int64` is the smallest integer, cast to `bool` it is `True`. -/
noncomputable def Dtype.fill : Dtype → Option ℝ
  | .float => none
  | .int => some (-(2 ^ 63))
  | .bool => some 1

/-- `a + b` of two entries: for booleans the logical or.  Overflow of integers is not modelled. -/
noncomputable def Dtype.add : Dtype → ℝ → ℝ → ℝ
  | .bool, a, b => if a = 0 ∧ b = 0 then 0 else 1
  | _, a, b => a + b

/-! ## Kernels -/

/-- A kernel function `(x, h) ↦ weight`. -/
abbrev Kernel := ℝ → ℝ → ℝ

/-- `"uniform"` (/repo/doubleml/rdd/rdd.py:563). -/
noncomputable def kernelUniform : Kernel := fun x h => if |x| ≤ h then 1 else 0

/-- `"triangular"` (/repo/doubleml/rdd/rdd.py:564); for `h = 0` numpy divides by zero (not modelled: Lean
gives 0). -/
noncomputable def kernelTriangular : Kernel := fun x h => max 0 ((h - |x|) / h)

/-- `"epanechnikov"` (/repo/doubleml/rdd/rdd.py:565). -/
noncomputable def kernelEpanechnikov : Kernel := fun x h => if |x| < h then 0.75 * (1 - (x / h) ^ 2) else 0

/-- The argument `fs_kernel`: a string, a callable or something else. -/
inductive KernelArg
  | str (s : String)
  | callable (k : Kernel)
  | other

/-- `_check_and_set_kernel` (/repo/doubleml/rdd/rdd.py:556-582); `casefold` is Python's `str.casefold`. -/
noncomputable def checkKernel (casefold : String → String) : KernelArg → Except Exc (Kernel × String)
  | .other => .error .typeError
  | .callable k => .ok (k, "custom_kernel")
  | .str s =>
    if casefold s = "uniform" then .ok (kernelUniform, "uniform")
    else if casefold s = "triangular" then .ok (kernelTriangular, "triangular")
    else if casefold s = "epanechnikov" then .ok (kernelEpanechnikov, "epanechnikov")
    else .error .valueError

/-! ## First stage -/

/-- `fs_specification`. -/
inductive FsSpec | cutoff | cutoffScore | interacted
  deriving DecidableEq

/-- `_check_fs_specification` (/repo/doubleml/rdd/rdd.py:584-594). -/
def checkFsSpec : PyVal → Except Exc FsSpec
  | .str s =>
    if s = "cutoff" then .ok .cutoff
    else if s = "cutoff and score" then .ok .cutoffScore
    else if s = "interacted cutoff and score" then .ok .interacted
    else .error .valueError
  | _ => .error .typeError

/-- The row of `Z` (/repo/doubleml/rdd/rdd.py:407-421); `t` is the intended treatment, `s` the score. -/
def zRow : FsSpec → ℝ → ℝ → List ℝ
  | .cutoff, t, _ => [t]
  | .cutoffScore, t, s => [t, s]
  | .interacted, t, s => [t, t * s, s]

/-- The row of `Z_left`. -/
def zLeft : FsSpec → List ℝ
  | .cutoff => [0]
  | .cutoffScore => [0, 0]
  | .interacted => [0, 0, 0]

/-- The row of `Z_right`. -/
def zRight : FsSpec → List ℝ
  | .cutoff => [1]
  | .cutoffScore => [1, 0]
  | .interacted => [1, 0, 0]

/-- A learner that supports sample weights, as a function of the training rows (features, target, weight). -/
structure WLearner where
  predict : List (List ℝ × ℝ × ℝ) → List ℝ → ℝ
  proba : List (List ℝ × ℝ × ℝ) → List ℝ → List ℝ

/-- Prediction for one row by the method chosen in `_check_and_set_learner`
(/repo/doubleml/rdd/rdd.py:433-439). -/
def WLearner.eval (L : WLearner) : Method → List (List ℝ × ℝ × ℝ) → List ℝ → Except Exc ℝ
  | .predict, D, z => .ok (L.predict D z)
  | .proba, D, z => manualColumn (L.proba D z)

/-- The data an `RDFlex` object works on: covariates, outcome and treatment with their types, and the score
variable.  (The checks of `_check_data` are in `RdInput`.) -/
structure RdData (n : ℕ) where
  x : Fin n → List ℝ
  y : Fin n → ℝ
  d : Fin n → ℝ
  s : Fin n → ℝ
  yType : Dtype
  dType : Dtype

/-- The result object of `rdrobust.rdrobust`: estimates, standard errors and confidence intervals for the
rows conventional, bias-corrected and robust; the effective numbers of observations on both sides; the
largest bandwidths `h` and `b`. -/
structure RdRes where
  coef : Fin 3 → ℝ
  se : Fin 3 → ℝ
  ci : Fin 3 → ℝ × ℝ
  Nh : ℝ × ℝ
  h : ℝ
  b : ℝ

/-- `rdrobust.rdrobust(y, x, fuzzy, h, b, **kwargs)`: arbitrary; it may raise. -/
abbrev RdRobust (n : ℕ) :=
  (Fin n → Option ℝ) → (Fin n → ℝ) → Option (Fin n → Option ℝ) → Option (ℝ × ℝ) → Except Exc RdRes

/-- An `RDFlex` object after construction; `w` are the first stage weights and `smpls` the drawn splits. -/
structure Rd (n r : ℕ) where
  data : RdData n
  cutoff : ℝ
  fuzzy : Bool
  ml_g : WLearner
  gMethod : Method
  ml_m : WLearner
  spec : FsSpec
  kernel : Kernel
  hFs : ℝ
  smpls : Fin r → List (Fold n)
  rdrobust : RdRobust n

/-- `self._score` (/repo/doubleml/rdd/rdd.py:117). -/
def Rd.score (R : Rd n r) (i : Fin n) : ℝ := R.data.s i - R.cutoff

/-- `self._intendend_treatment` (/repo/doubleml/rdd/rdd.py:119). -/
noncomputable def Rd.intended (R : Rd n r) (i : Fin n) : ℝ := if 0 ≤ R.score i then 1 else 0

/-- `_calc_weights` (/repo/doubleml/rdd/rdd.py:468-470); `self._w` is this with `h = h_fs`. -/
noncomputable def Rd.weights (R : Rd n r) (h : ℝ) (i : Fin n) : ℝ := R.kernel (R.score i) h

/-- `ZX[train_index], outcome[train_index], sample_weight=weights[train_index]`
(/repo/doubleml/rdd/rdd.py:431). -/
noncomputable def Rd.trainRows (R : Rd n r) (outcome w : Fin n → ℝ) (train : List (Fin n)) :
    List (List ℝ × ℝ × ℝ) :=
  train.map fun i => (zRow R.spec (R.intended i) (R.score i) ++ R.data.x i, outcome i, w i)

/-- `mu[test_index] = values` for an array of the given type. -/
noncomputable def castScatter (t : Dtype) (a : Fin n → Option ℝ) (idx : List (Fin n)) (vals : List ℝ) : Fin n → Option ℝ :=
  scatter a idx (vals.map t.cast)

/-- One pass of the loop over the folds (/repo/doubleml/rdd/rdd.py:429-439). -/
noncomputable def Rd.foldStep (R : Rd n r) (t : Dtype) (L : WLearner) (m : Method) (outcome w : Fin n → ℝ)
    (mu : (Fin n → Option ℝ) × (Fin n → Option ℝ)) (f : Fold n) :
    Except Exc ((Fin n → Option ℝ) × (Fin n → Option ℝ)) := do
  let D := R.trainRows outcome w f.train
  let left ← f.test.mapM fun i => L.eval m D (zLeft R.spec ++ R.data.x i)
  let right ← f.test.mapM fun i => L.eval m D (zRight R.spec ++ R.data.x i)
  pure (castScatter t mu.1 f.test left, castScatter t mu.2 f.test right)

/-- `(a + b) / 2` with missing values. -/
noncomputable def halfSum (t : Dtype) : Option ℝ → Option ℝ → Option ℝ
  | some a, some b => some (t.add a b / 2)
  | _, _ => none

/-- `_fit_nuisance_model` (/repo/doubleml/rdd/rdd.py:405-441). -/
noncomputable def Rd.fitNuisance (R : Rd n r) (t : Dtype) (L : WLearner) (m : Method) (outcome w : Fin n → ℝ)
    (smpls : List (Fold n)) : Except Exc (Fin n → Option ℝ) := do
  let mu ← smpls.foldlM (R.foldStep t L m outcome w) (fun _ => t.fill, fun _ => t.fill)
  pure fun i => halfSum t (mu.1 i) (mu.2 i)

/-! ## Fit -/

/-- What `_set_coefs` stores for a repetition (/repo/doubleml/rdd/rdd.py:461-466): the bandwidth (`None`
becomes `nan`) and the result of the last stage. -/
structure RdSlot where
  h : Option ℝ
  res : RdRes

/-- The aggregated results (/repo/doubleml/rdd/rdd.py:618-630). -/
structure RdAgg where
  coef : Fin 3 → ℝ
  se : Fin 3 → ℝ
  ci : Fin 3 → ℝ × ℝ

/-- The mutable part of an `RDFlex` object.  `all_coef`, `all_se`, `all_ci`, `h` and `rdd_obj` of a
repetition are only ever written together and are kept in one slot. -/
structure RdState (n r : ℕ) where
  mY : Fin r → Fin n → Option ℝ
  mD : Fin r → Fin n → Option ℝ
  slots : Fin r → Option RdSlot
  agg : Option RdAgg

/-- `_initialize_arrays` (/repo/doubleml/rdd/rdd.py:472-481). -/
def rdInit : RdState n r := ⟨fun _ _ => none, fun _ _ => none, fun _ => none, none⟩

/-- `outcome - eta`. -/
def subEta (outcome : Fin n → ℝ) (eta : Fin n → Option ℝ) (i : Fin n) : Option ℝ := (eta i).map fun e => outcome i - e

/-- The two assignments to `_M_Y` and `_M_D` of one iteration (/repo/doubleml/rdd/rdd.py:344-351). -/
noncomputable def Rd.adjust (R : Rd n r) (k : Fin r) (w : Fin n → ℝ) (st : RdState n r) : RdState n r × Except Exc Unit :=
  match R.fitNuisance R.data.yType R.ml_g R.gMethod R.data.y w (R.smpls k) with
  | .error e => (st, .error e)
  | .ok etaY =>
    let st₁ : RdState n r := { st with mY := Function.update st.mY k (subEta R.data.y etaY) }
    if R.fuzzy then
      match R.fitNuisance R.data.dType R.ml_m .proba R.data.d w (R.smpls k) with
      | .error e => (st₁, .error e)
      | .ok etaD => ({ st₁ with mD := Function.update st₁.mD k (subEta R.data.d etaD) }, .ok ())
    else (st₁, .ok ())

/-- `_fit_rdd` (/repo/doubleml/rdd/rdd.py:452-459). -/
def Rd.fitRdd (R : Rd n r) (k : Fin r) (st : RdState n r) (hb : Option (ℝ × ℝ)) : Except Exc RdRes :=
  if R.fuzzy then R.rdrobust (st.mY k) R.score (some (st.mD k)) hb else R.rdrobust (st.mY k) R.score none hb

/-- The loop over the iterations (/repo/doubleml/rdd/rdd.py:343-363) with `m + 1` iterations left, the current
weights and the bandwidths found so far (`None` in the first iteration). -/
noncomputable def Rd.iterate (R : Rd n r) (k : Fin r) :
    ℕ → (Fin n → ℝ) → Option (ℝ × ℝ) → RdState n r → RdState n r × Except Exc Unit
  | 0, w, hb, st =>
    match R.adjust k w st with
    | (st', .error e) => (st', .error e)
    | (st', .ok _) =>
      match R.fitRdd k st' hb with
      | .error e => (st', .error e)
      | .ok res => ({ st' with slots := Function.update st'.slots k (some ⟨hb.map Prod.fst, res⟩) }, .ok ())
  | m + 1, w, _, st =>
    match R.adjust k w st with
    | (st', .error e) => (st', .error e)
    | (st', .ok _) =>
      match R.fitRdd k st' none with
      | .error e => (st', .error e)
      | .ok res => R.iterate k m (R.weights res.h) (some (res.h, res.b)) st'

/-- The loop over the repetitions (/repo/doubleml/rdd/rdd.py:337-363). -/
noncomputable def Rd.reps (R : Rd n r) (m : ℕ) : List (Fin r) → RdState n r → RdState n r × Except Exc Unit
  | [], st => (st, .ok ())
  | k :: ks, st =>
    match R.iterate k m (R.weights R.hFs) none st with
    | (st', .error e) => (st', .error e)
    | (st', .ok _) => R.reps m ks st'

/-- The results of the last stage; `none` stands for an `AttributeError` (`None.N_h`), which cannot happen
after the loop. -/
def allRes (slots : Fin r → Option RdSlot) : Option (Fin r → RdRes) :=
  if h : ∀ k, (slots k).isSome then some fun k => ((slots k).get (h k)).res else none

/-- `aggregate_over_splits` (/repo/doubleml/rdd/rdd.py:618-628). -/
noncomputable def rdAggregate (res : Fin r → RdRes) : RdAgg where
  coef j := median fun k => (res k).coef j
  se j := Real.sqrt (median fun k =>
    (res k).se j ^ 2 + ((res k).coef j - median fun k => (res k).coef j) ^ 2 / ((res k).Nh.1 + (res k).Nh.2))
  ci j := (median fun k => ((res k).ci j).1, median fun k => ((res k).ci j).2)

/-- `_check_iterations` (/repo/doubleml/rdd/rdd.py:596-607). -/
def checkIterations (v : PyVal) : Except Exc ℕ :=
  match v.asInt with
  | none => .error .typeError
  | some z => if z < 1 then .error .valueError else .ok z.toNat

/-- `fit` (/repo/doubleml/rdd/rdd.py:316-366). -/
noncomputable def Rd.fit (R : Rd n r) (nIter : PyVal) (st : RdState n r) : RdState n r × Except Exc Unit :=
  match checkIterations nIter with
  | .error e => (st, .error e)
  | .ok m =>
    match R.reps (m - 1) (List.finRange r) st with
    | (st', .error e) => (st', .error e)
    | (st', .ok _) =>
      match allRes st'.slots with
      | none => (st', .error .attributeError)
      | some res => ({ st' with agg := some (rdAggregate res) }, .ok ())

/-- `confint` (/repo/doubleml/rdd/rdd.py:368-403) of a fitted object; before `fit` it returns `nan`
(`none`). -/
noncomputable def RdState.confint (st : RdState n r) (level : PyVal) : Except Exc (Option (Fin 3 → ℝ × ℝ)) := do
  let l ← checkInZeroOne level false false
  pure ((allRes st.slots).map fun res j =>
    (median fun k => (res k).coef j - (res k).se j * ppf (1 - (1 - l) / 2),
      median fun k => (res k).coef j + (res k).se j * ppf (1 - (1 - l) / 2)))

/-- `t_stat` (/repo/doubleml/rdd/rdd.py:279-284). -/
noncomputable def RdAgg.t (a : RdAgg) (j : Fin 3) : ℝ := a.coef j / a.se j

/-- `pval` (/repo/doubleml/rdd/rdd.py:286-292). -/
noncomputable def RdAgg.pval (a : RdAgg) (j : Fin 3) : ℝ := 2 * Phi (-|a.t j|)

/-! ## Construction -/

/-- The arguments of the constructor, with the facts about the data object that `_check_data` inspects:
whether a score variable is set, its type, the number of treatments and whether instruments are set. -/
structure RdInput (n : ℕ) where
  data : RdData n
  hasScore : Bool
  sType : Dtype
  nTreat : ℕ
  hasZ : Bool
  binaryOutcome : Bool
  cutoff : PyVal
  fuzzy : Bool
  ml_g : WLearner
  gClassifier : Bool
  ml_m : Option WLearner
  nFolds : ℕ
  hFs : PyVal
  fsSpec : PyVal
  fsKernel : KernelArg

/-- `isinstance(cutoff, (int, float))` and its value. -/
def PyVal.number : PyVal → Option ℝ
  | .float x => some x
  | .int z => some z
  | .bool b => some (if b then 1 else 0)
  | _ => Option.none

/-- `type_of_target(s) == "continuous"`: a float array with at least one value that is not an integer. -/
def continuousTarget (t : Dtype) (s : Fin n → ℝ) : Prop := t = .float ∧ ∃ i, ∀ z : ℤ, s i ≠ z

open Classical in
/-- `_check_data` (/repo/doubleml/rdd/rdd.py:483-522).  `type_of_target(d) == "binary"` holds for every
column of zeros and ones. -/
noncomputable def rdCheckData (a : RdInput n) : Except Exc ℝ :=
  if !a.hasScore then .error .valueError
  else if ¬ continuousTarget a.sType a.data.s then .error .valueError
  else match a.cutoff.number with
    | none => .error .typeError
    | some c =>
      if ¬ ((∃ i, a.data.s i ≤ c) ∧ ∃ i, c ≤ a.data.s i) then .error .valueError
      else if ¬ (a.nTreat = 1 ∧ ∀ i, a.data.d i = 0 ∨ a.data.d i = 1) then .error .valueError
      else if a.hasZ then .error .valueError
      else .ok c

/-- `_check_and_set_learner` (/repo/doubleml/rdd/rdd.py:524-554) for learners that support sample weights:
the method for `ml_g`, and the learner for the treatment (a sharp design needs none). -/
def rdCheckLearners (a : RdInput n) : Except Exc (Method × WLearner) :=
  if a.gClassifier ∧ ¬ a.binaryOutcome then .error .valueError
  else
    let m := if a.gClassifier then Method.proba else Method.predict
    if a.fuzzy then
      match a.ml_m with
      | none => .error .valueError
      | some L => .ok (m, L)
    else .ok (m, ⟨fun _ _ => 0, fun _ _ => []⟩)

/-- `h_fs` (/repo/doubleml/rdd/rdd.py:131-137): the float given, or the bandwidth of `rdbwselect`. -/
def rdBandwidth (bw : ℝ) : PyVal → Except Exc ℝ
  | .none => .ok bw
  | .float h => .ok h
  | _ => .error .typeError

open Classical in
/-- `_check_effect_sign` (/repo/doubleml/rdd/rdd.py:609-616): `np.average` raises if the weights on one side
of the cutoff sum to zero; otherwise there is at most a warning. -/
noncomputable def rdCheckSign (score w : Fin n → ℝ) : Except Exc Unit :=
  if (∑ i, if score i < 0 then w i else 0) = 0 ∨ (∑ i, if 0 < score i then w i else 0) = 0 then .error .zeroDivision
  else .ok ()

/-- `_check_resampling_specification` (/repo/doubleml/utils/_checks.py:390-403) for integer arguments. -/
def rdCheckFolds (nFolds : ℕ) : Except Exc Unit := if 2 ≤ nFolds then .ok () else .error .valueError

/-- `RDFlex.__init__` (/repo/doubleml/rdd/rdd.py:95-175) up to warnings: `a` gives for every repetition the
fold of every observation (the stratified draw), `bw` is the bandwidth of `rdbwselect`. -/
noncomputable def rdCreate (casefold : String → String) (bw : ℝ) (rdrobust : RdRobust n) (fold : Fin r → Fin n → ℕ)
    (a : RdInput n) : Except Exc (Rd n r × RdState n r) := do
  let c ← rdCheckData a
  let lm ← rdCheckLearners a
  let _ ← rdCheckFolds a.nFolds
  let h ← rdBandwidth bw a.hFs
  let spec ← checkFsSpec a.fsSpec
  let ker ← checkKernel casefold a.fsKernel
  let _ ← rdCheckSign (fun i => a.data.s i - c) (fun i => ker.1 (a.data.s i - c) h)
  pure ({ data := a.data
          cutoff := c
          fuzzy := a.fuzzy
          ml_g := a.ml_g
          gMethod := lm.1
          ml_m := lm.2
          spec := spec
          kernel := ker.1
          hFs := h
          smpls := fun k => assignFolds a.nFolds (fold k)
          rdrobust := rdrobust }, rdInit)

end DML
