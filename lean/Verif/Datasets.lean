import Verif.Data
import Verif.Stats
import Mathlib.Analysis.SpecialFunctions.Trigonometric.DerivHyp
import Mathlib.Analysis.SpecialFunctions.Sqrt

/-!
# Simulated data

Model of the simulators in /repo/doubleml/datasets.py and /repo/doubleml/rdd/datasets/simple_dgp.py.  The arrays drawn with
`np.random` are arguments of the model, in the order of the draws where this matters for nothing else; everything computed
from them is modelled.  `fetch_401K` and `fetch_bonus` download files and are not modelled.
-/

namespace DML

variable {n p : ℕ}

/-- `return_type` (/repo/doubleml/datasets.py:12-15): one of the aliases of arrays, of data frames, of the data class, or
something else. -/
inductive ReturnType
  | array | frame | data | other
  deriving DecidableEq

/-- What a simulator returns: a tuple of the matrix of covariates (as columns) and further arrays, a data frame, or a data
object built on a data frame. -/
inductive SimOut (n : ℕ)
  | arrays (x : List (Fin n → ℝ)) (rest : List (Fin n → ℝ))
  | frame (F : Frame n)
  | data (F : Frame n) (D : DataState n)

/-- Numbers as cells of a data frame. -/
def numCells (l : List (String × (Fin n → ℝ))) : List (String × (Fin n → Cell)) := l.map fun c => (c.1, fun i => .num (c.2 i))

/-- The columns of a matrix. -/
def matCols (X : Fin n → Fin p → ℝ) : List (Fin n → ℝ) := List.ofFn fun j i => X i j

/-- Names `prefix1, prefix2, …` (`[f"X{i + 1}" for i in np.arange(dim_x)]`, e.g. /repo/doubleml/datasets.py:231,655-656). -/
def numbered (s : String) (k : ℕ) : List String := (List.range k).map fun (i : ℕ) => s ++ toString (i + 1)

/-- The last lines of the simulators (e.g. /repo/doubleml/datasets.py:228-238,503-513): arrays, a data frame with the covariates
first, or a data object with the given roles; any other `return_type` is a `ValueError`. -/
noncomputable def simReturn (rt : ReturnType) (x : List (Fin n → ℝ)) (xName : String) (cols : List (String × (Fin n → ℝ)))
    (cluster : Option ColArg) (a : DataArgs) : Except Exc (SimOut n) :=
  match rt with
  | .array => .ok (.arrays x (cols.map Prod.snd))
  | .frame => .ok (.frame (frameOf (numCells ((numbered xName x.length).zip x ++ cols))))
  | .data => do
    let F := frameOf (numCells ((numbered xName x.length).zip x ++ cols))
    let D ← dataInit F cluster a
    return .data F D
  | .other => .error .valueError

/-- The roles `DoubleMLData(data, "y", "d", x_cols, ...)`; the flags have their default `True`. -/
def simRoles (xs : List String) (z t s : ColArg) : DataArgs :=
  { y := .str "y"
    d := .str "d"
    x := .list xs
    z := z
    t := t
    s := s
    useOther := .bool true
    force := .bool true }

/-- `np.exp(a) / (1 + np.exp(a))`. -/
noncomputable def logistic (a : ℝ) : ℝ := Real.exp a / (1 + Real.exp a)

/-- `np.dot` of two vectors. -/
def dotp (x b : Fin p → ℝ) : ℝ := ∑ j, x j * b j

/-! ## Partially linear models -/

/-- The keyword arguments of `make_plr_CCDDHNR2018` after their defaults were filled in
(/repo/doubleml/datasets.py:188-194). -/
structure CcdArgs where
  alpha : ℝ
  a0 : ℝ := 1
  a1 : ℝ := 1 / 4
  s1 : ℝ := 1
  b0 : ℝ := 1
  b1 : ℝ := 1 / 4
  s2 : ℝ := 1

/-- `make_plr_CCDDHNR2018` (/repo/doubleml/datasets.py:196-238) on the drawn covariates `X` and standard normal errors `v`
and `ζ`.  Columns 0 and 2 of `X` are read; with fewer than three covariates numpy raises an `IndexError`. -/
noncomputable def makePlrCcd (a : CcdArgs) (rt : ReturnType) (X : Fin n → Fin p → ℝ) (v ζ : Fin n → ℝ) : Except Exc (SimOut n) :=
  if h : 2 < p then
    let x0 := fun i => X i ⟨0, by omega⟩
    let x2 := fun i => X i ⟨2, h⟩
    let d := fun i => a.a0 * x0 i + a.a1 * (Real.exp (x2 i) / (1 + Real.exp (x2 i))) + a.s1 * v i
    let y := fun i => a.alpha * d i + a.b0 * (Real.exp (x0 i) / (1 + Real.exp (x0 i))) + a.b1 * x2 i + a.s2 * ζ i
    simReturn rt (matCols X) "X" [("y", y), ("d", d)] none (simRoles (numbered "X" p) .none .none .none)
  else .error .indexError

/-- `_g` (/repo/doubleml/datasets.py:135-136). -/
noncomputable def simG (x : ℝ) : ℝ := Real.sin x ^ 2

/-- `_m` (/repo/doubleml/datasets.py:139-140). -/
noncomputable def simM (x : ℝ) (nu : ℝ := 0) (gamma : ℝ := 1) : ℝ :=
  0.5 / Real.pi * Real.sinh gamma / (Real.cosh gamma - Real.cos (x - nu))

/-- `b = [1 / k for k in range(1, dim_x + 1)]` (/repo/doubleml/datasets.py:288,517). -/
noncomputable def harmonic (p : ℕ) (j : Fin p) : ℝ := 1 / ((j : ℝ) + 1)

/-- `make_plr_turrell2018` (/repo/doubleml/datasets.py:285-327) on the drawn covariates and standard normal errors. -/
noncomputable def makePlrTurrell (theta nu gamma : ℝ) (rt : ReturnType) (X : Fin n → Fin p → ℝ) (v ζ : Fin n → ℝ) :
    Except Exc (SimOut n) :=
  let G := fun i => simG (dotp (X i) (harmonic p))
  let M := fun i => simM (dotp (X i) (harmonic p)) nu gamma
  let d := fun i => M i + v i
  let y := fun i => theta * d i + G i + ζ i
  simReturn rt (matCols X) "X" [("y", y), ("d", d)] none (simRoles (numbered "X" p) .none .none .none)

/-- `beta = [1 / (k**2) for k in range(1, dim_x + 1)]` (/repo/doubleml/datasets.py:399,491,639). -/
noncomputable def invSquares (p : ℕ) (j : Fin p) : ℝ := 1 / ((j : ℝ) + 1) ^ 2

/-- `_make_pliv_data` (/repo/doubleml/datasets.py:516-561): `e`, `v`, `ζ` are the standard normal errors of the instrument, the
treatment and the outcome. -/
noncomputable def makePliv (theta gammaZ : ℝ) (rt : ReturnType) (X : Fin n → Fin p → ℝ) (e v ζ : Fin n → ℝ) : Except Exc (SimOut n) :=
  let G := fun i => simG (dotp (X i) (harmonic p))
  let z := fun i => simM (dotp (X i) (harmonic p)) + e i
  let M := fun i => simM (gammaZ * z i + dotp (X i) (harmonic p))
  let d := fun i => M i + v i
  let y := fun i => theta * d i + G i + ζ i
  simReturn rt (matCols X) "X" [("y", y), ("d", d), ("z", z)] none (simRoles (numbered "X" p) (.str "z") .none .none)

/-- `make_pliv_CHS2015` (/repo/doubleml/datasets.py:608-663): `eps`, `u` are the correlated errors of outcome and treatment, `xi`
the errors of the instruments.  `np.dot(x, np.transpose(Pi))` with `Pi = (I, 0)` takes the first `q` covariates.  For the data
object the instruments are called `Z1, Z2, …`. -/
noncomputable def makePlivChs {q : ℕ} (alpha : ℝ) (rt : ReturnType) (X : Fin n → Fin p → ℝ) (eps u : Fin n → ℝ)
    (xi : Fin n → Fin q → ℝ) : Except Exc (SimOut n) :=
  if h : q ≤ p then
    let z : Fin n → Fin q → ℝ := fun i j => X i (Fin.castLE h j) + xi i j
    let d := fun i => dotp (X i) (invSquares p) + dotp (z i) (invSquares q) + u i
    let y := fun i => alpha * d i + dotp (X i) (invSquares p) + eps i
    simReturn rt (matCols X) "X" ([("y", y), ("d", d)] ++ (numbered "Z" q).zip (matCols z)) none
      (simRoles (numbered "X" p) (.list (numbered "Z" q)) .none .none)
  else .error .assertion

/-- `toeplitz([np.power(c, k) for k in range(dim_x)])` (e.g. /repo/doubleml/datasets.py:390). -/
noncomputable def toeplitz (c : ℝ) (p : ℕ) (j k : Fin p) : ℝ := c ^ (max (j : ℕ) k - min (j : ℕ) k)

/-- `b_sigma_b = np.dot(np.dot(cov_mat, beta), beta)` (/repo/doubleml/datasets.py:400). -/
noncomputable def quadForm (A : Fin p → Fin p → ℝ) (b : Fin p → ℝ) : ℝ := ∑ j, (∑ k, A j k * b k) * b j

/-! ## Interactive models -/

/-- `make_irm_data` (/repo/doubleml/datasets.py:377-420): `v` uniform, `ζ` standard normal. -/
noncomputable def makeIrm (theta R2d R2y : ℝ) (rt : ReturnType) (v ζ : Fin n → ℝ) (X : Fin n → Fin p → ℝ) : Except Exc (SimOut n) :=
  let bsb := quadForm (toeplitz 0.5 p) (invSquares p)
  let cy := Real.sqrt (R2y / ((1 - R2y) * bsb))
  let cd := Real.sqrt (Real.pi ^ 2 / 3 * R2d / ((1 - R2d) * bsb))
  let xx := fun i => Real.exp (dotp (X i) fun j => invSquares p j * cd)
  let d := fun i => if v i < xx i / (1 + xx i) then (1 : ℝ) else 0
  let y := fun i => d i * theta + d i * dotp (X i) (fun j => invSquares p j * cy) + ζ i
  simReturn rt (matCols X) "X" [("y", y), ("d", d)] none (simRoles (numbered "X" p) .none .none .none)

/-- `make_iivm_data` (/repo/doubleml/datasets.py:472-513): `u`, `v` the correlated errors, `z` the instrument drawn with
probability one half. -/
noncomputable def makeIivm (theta alphaX : ℝ) (rt : ReturnType) (u v : Fin n → ℝ) (X : Fin n → Fin p → ℝ) (z : Fin n → ℝ) :
    Except Exc (SimOut n) :=
  let d := fun i => if 0 < alphaX * z i + v i then (1 : ℝ) else 0
  let y := fun i => d i * theta + dotp (X i) (invSquares p) + u i
  simReturn rt (matCols X) "X" [("y", y), ("d", d), ("z", z)] none (simRoles (numbered "X" p) (.str "z") .none .none)

/-- `make_ssm_data` (/repo/doubleml/datasets.py:1601-1648): `e0`, `e1` the errors of selection and outcome, `w` the error of the
treatment, `z` the instrument.  Outcomes of observations that are not selected are set to zero.  With `mar` the instrument is
not part of the frame and of the roles, but it is part of the returned arrays. -/
noncomputable def makeSsm (theta : ℝ) (mar : Bool) (rt : ReturnType) (e0 e1 : Fin n → ℝ) (X : Fin n → Fin p → ℝ) (w z : Fin n → ℝ) :
    Except Exc (SimOut n) :=
  let gamma : ℝ := if mar then 0 else 1
  let beta : Fin p → ℝ := fun j => 0.4 / ((j : ℝ) + 1) ^ 2
  let d := fun i => if 0 < dotp (X i) beta + w i then (1 : ℝ) else 0
  let s := fun i => if 0 < dotp (X i) beta + d i + gamma * z i + e0 i then (1 : ℝ) else 0
  let y := fun i => if s i = 0 then 0 else dotp (X i) beta + theta * d i + e1 i
  if rt = .array then .ok (.arrays (matCols X) [y, d, z, s])
  else if mar then
    simReturn rt (matCols X) "X" [("y", y), ("d", d), ("s", s)] none (simRoles (numbered "X" p) .none .none (.str "s"))
  else
    simReturn rt (matCols X) "X" [("y", y), ("d", d), ("z", z), ("s", s)] none (simRoles (numbered "X" p) (.str "z") .none (.str "s"))

/-! ## Designs with transformed covariates -/

/-- `np.std`. -/
noncomputable def popStd (f : Fin n → ℝ) : ℝ := Real.sqrt (mean fun i => (f i - mean f) ^ 2)

/-- `(z_tilde - np.mean(z_tilde, axis=0)) / np.std(z_tilde, axis=0)` for one column (e.g. /repo/doubleml/datasets.py:971).  A
constant column gives NaN in numpy and zero here. -/
noncomputable def standardize (f : Fin n → ℝ) (i : Fin n) : ℝ := (f i - mean f) / popStd f

/-- The four transformed covariates (/repo/doubleml/datasets.py:965-968,1179-1182,1384-1387,1767-1770). -/
noncomputable def zTilde (X : Fin n → Fin 4 → ℝ) (j : Fin 4) (i : Fin n) : ℝ :=
  ![Real.exp (0.5 * X i 0), 10 + X i 1 / (1 + Real.exp (X i 0)), (0.6 + X i 0 * X i 2 / 25) ^ 3, (20 + X i 1 + X i 3) ^ 2] j

/-- The standardised transformed covariates (/repo/doubleml/datasets.py:970-971). -/
noncomputable def zScaled (X : Fin n → Fin 4 → ℝ) (i : Fin n) (j : Fin 4) : ℝ := standardize (zTilde X j) i

/-- `f_reg` (/repo/doubleml/datasets.py:949-951). -/
noncomputable def szReg (w : Fin 4 → ℝ) : ℝ := 210 + 27.4 * w 0 + 13.7 * (w 1 + w 2 + w 3)

/-- `f_ps` (/repo/doubleml/datasets.py:953-955). -/
noncomputable def szPs (xi : ℝ) (w : Fin 4 → ℝ) : ℝ := xi * (-w 0 + 0.5 * w 1 - 0.25 * w 2 - 0.1 * w 3)

/-- The draws of `make_did_SZ2020`: errors of both periods, uniform draws of treatment and period, and the errors `nu0` of the
unit effect (`np.random.normal(loc=l, scale=1)` is `l` plus a standard normal error). -/
structure SzDraws (n : ℕ) where
  X : Fin n → Fin 4 → ℝ
  eps0 : Fin n → ℝ
  eps10 : Fin n → ℝ
  eps11 : Fin n → ℝ
  u : Fin n → ℝ
  nu0 : Fin n → ℝ
  uT : Fin n → ℝ

/-- `features_ps` and `features_reg` (/repo/doubleml/datasets.py:977-997); `none` stands for an experiment. -/
noncomputable def szFeatures (dgp : ℤ) (X : Fin n → Fin 4 → ℝ) :
    Except Exc (Option (Fin n → Fin 4 → ℝ) × (Fin n → Fin 4 → ℝ)) :=
  if dgp = 1 then .ok (some (zScaled X), zScaled X)
  else if dgp = 2 then .ok (some X, zScaled X)
  else if dgp = 3 then .ok (some (zScaled X), X)
  else if dgp = 4 then .ok (some X, X)
  else if dgp = 5 then .ok (none, zScaled X)
  else if dgp = 6 then .ok (none, X)
  else .error .valueError

/-- The potential outcomes, the treatment and the period of `make_did_SZ2020` (/repo/doubleml/datasets.py:1000-1017,1033-1034). -/
structure SzTable (n : ℕ) where
  d : Fin n → ℝ
  y0 : Fin n → ℝ
  y1d0 : Fin n → ℝ
  y1d1 : Fin n → ℝ
  t : Fin n → ℝ

/-- The computation of the table (/repo/doubleml/datasets.py:1000-1017,1033-1034). -/
noncomputable def szTable (xi lamT : ℝ) (f : Option (Fin n → Fin 4 → ℝ) × (Fin n → Fin 4 → ℝ)) (w : SzDraws n) : SzTable n :=
  let prob := fun i => match f.1 with
    | none => 0.5
    | some ps => Real.exp (szPs xi (ps i)) / (1 + Real.exp (szPs xi (ps i)))
  let d := fun i => if w.u i ≤ prob i then (1 : ℝ) else 0
  let nu := fun i => d i * szReg (f.2 i) + w.nu0 i
  { d := d
    y0 := fun i => szReg (f.2 i) + nu i + w.eps0 i
    y1d0 := fun i => 2 * szReg (f.2 i) + nu i + w.eps10 i
    y1d1 := fun i => 2 * szReg (f.2 i) + nu i + w.eps11 i
    t := fun i => if w.uT i ≤ lamT then 1 else 0 }

/-- `make_did_SZ2020` (/repo/doubleml/datasets.py:945-1047); the returned covariates are the transformed ones in every design.  (For
panel data and arrays the code returns a fourth component `None`, which is left out.) -/
noncomputable def makeDid (dgp : ℤ) (cross : Bool) (xi lamT : ℝ) (rt : ReturnType) (w : SzDraws n) : Except Exc (SimOut n) := do
  let f ← szFeatures dgp w.X
  let T := szTable xi lamT f w
  let y1 := fun i => T.d i * T.y1d1 i + (1 - T.d i) * T.y1d0 i
  let z := matCols (zScaled w.X)
  if cross then
    simReturn rt z "Z" [("y", fun i => T.t i * y1 i + (1 - T.t i) * T.y0 i), ("d", T.d), ("t", T.t)] none
      (simRoles (numbered "Z" 4) .none (.str "t") .none)
  else
    simReturn rt z "Z" [("y", fun i => y1 i - T.y0 i), ("d", T.d)] none (simRoles (numbered "Z" 4) .none .none .none)

/-! ## Designs with an unobserved confounder -/

/-- `f_reg` of `make_confounded_irm_data` (/repo/doubleml/datasets.py:1160-1162). -/
noncomputable def cfReg (w : Fin 5 → ℝ) : ℝ := 2.5 + 0.74 * w 0 + 0.25 * w 1 + 0.137 * (w 2 + w 3)

/-- `f_ps` of `make_confounded_irm_data` (/repo/doubleml/datasets.py:1165-1167) with `xi = 0.75`. -/
noncomputable def cfPs (w : Fin 5 → ℝ) : ℝ := 0.75 * (-w 0 + 0.1 * w 1 - 0.25 * w 2 - 0.1 * w 3)

/-- The five transformed covariates (/repo/doubleml/datasets.py:1179-1185), standardised. -/
noncomputable def zScaled5 (X : Fin n → Fin 5 → ℝ) (i : Fin n) (j : Fin 5) : ℝ :=
  standardize (fun i => ![Real.exp (0.5 * X i 0), 10 + X i 1 / (1 + Real.exp (X i 0)), (0.6 + X i 0 * X i 2 / 25) ^ 3,
    (20 + X i 1 + X i 3) ^ 2, X i 4] j) i

/-- `np.clip`. -/
noncomputable def npClip (a lo hi : ℝ) : ℝ := min (max a lo) hi

/-- The result of `make_confounded_irm_data`: data and oracle values. -/
structure CfIrm (n : ℕ) where
  x : Fin n → Fin 5 → ℝ
  y : Fin n → ℝ
  d : Fin n → ℝ
  gLong : Fin n → ℝ
  gShort : Fin n → ℝ
  mLong : Fin n → ℝ
  mShort : Fin n → ℝ
  a : Fin n → ℝ
  y0 : Fin n → ℝ
  y1 : Fin n → ℝ
  z : Fin n → Fin 5 → ℝ
  cfY : ℝ
  cfDAte : ℝ
  cfDAtte : ℝ

open Classical in
/-- `make_confounded_irm_data` (/repo/doubleml/datasets.py:1152-1276) for `dim_x = 5`: `eps` the error of the outcome (already with
its standard deviation), `a` the confounder, `u` the uniform draws of the treatment, `thr` the trimming threshold.  The
correlations `rho_ate` and `rho_atte` are left out. -/
noncomputable def makeCfIrm (theta gammaA betaA : ℝ) (linear : Bool) (thr : ℝ) (X : Fin n → Fin 5 → ℝ) (eps a u : Fin n → ℝ) : CfIrm n :=
  let z := zScaled5 X
  let varA : ℝ := (1 - (-1)) ^ 2 / 12
  let f := if linear then X else z
  let prob := fun i => Real.exp (cfPs (f i)) / (1 + Real.exp (cfPs (f i)))
  let mLong0 := fun i => prob i + gammaA * a i
  let out := (∃ i, mLong0 i < thr) ∨ ∃ i, mLong0 i > 1 - thr
  let mLong := fun i => if out then npClip (mLong0 i) thr (1 - thr) else mLong0 i
  let mShort := fun i => if out then npClip (prob i) thr (1 - thr) else prob i
  let d := fun i => if u i ≤ mLong i then (1 : ℝ) else 0
  let d1x := fun i => z i 4 + 1
  let varDx := popStd (fun i => d i * d1x i) ^ 2
  let covAdx := gammaA * varA
  let g := fun i => cfReg (f i)
  let gShort := fun i => d i * ((theta + betaA * covAdx / varDx) * d1x i + g i) + (1 - d i) * g i
  let gLong0 := fun i => g i + betaA * a i
  let gLong1 := fun i => theta * d1x i + g i + betaA * a i
  let gLong := fun i => d i * gLong1 i + (1 - d i) * gLong0 i
  let y0 := fun i => gLong0 i + eps i
  let y1 := fun i => gLong1 i + eps i
  let y := fun i => d i * y1 i + (1 - d i) * y0 i
  { x := X
    y := y
    d := d
    gLong := gLong
    gShort := gShort
    mLong := mLong
    mShort := mShort
    a := a
    y0 := y0
    y1 := y1
    z := z
    cfY := (mean fun i => (gLong i - gShort i) ^ 2) / mean fun i => (y i - gShort i) ^ 2
    cfDAte := ((mean fun i => 1 / (mLong i * (1 - mLong i))) - mean fun i => 1 / (mShort i * (1 - mShort i))) /
      mean fun i => 1 / (mLong i * (1 - mLong i))
    cfDAtte := ((mean fun i => mLong i / (1 - mLong i)) - mean fun i => mShort i / (1 - mShort i)) / mean fun i => mLong i / (1 - mLong i) }

/-- The result of `make_confounded_plr_data`. -/
structure CfPlr (n p : ℕ) where
  x : Fin n → Fin p → ℝ
  y : Fin n → ℝ
  d : Fin n → ℝ
  gLong : Fin n → ℝ
  gShort : Fin n → ℝ
  mLong : Fin n → ℝ
  mShort : Fin n → ℝ
  gammaA : ℝ
  betaA : ℝ

/-- The objective `f_m` (/repo/doubleml/datasets.py:1403-1407) with `var_a = 1/3` and `var_eps_d = 1`. -/
noncomputable def cfM (cfD : ℝ) (a epsD : Fin n → ℝ) (gammaA : ℝ) : ℝ :=
  let varA : ℝ := (1 - (-1)) ^ 2 / 12
  let rrLong := fun i => epsD i / 1
  let rrShort := fun i => (gammaA * a i + epsD i) / (gammaA ^ 2 * varA + 1)
  let C2 := ((mean fun i => rrLong i ^ 2) - mean fun i => rrShort i ^ 2) / mean fun i => rrShort i ^ 2
  (C2 / (1 + C2) - cfD) ^ 2

/-- The objective `f_g` (/repo/doubleml/datasets.py:1418-1421). -/
noncomputable def cfG (cfY : ℝ) (a epsY d : Fin n → ℝ) (gammaA varD betaA : ℝ) : ℝ :=
  let varA : ℝ := (1 - (-1)) ^ 2 / 12
  let gDiff := fun i => betaA * (a i - gammaA * (varA / varD) * d i)
  let yDiff := fun i => epsY i + gDiff i
  ((mean fun i => gDiff i ^ 2) / (mean fun i => yDiff i ^ 2) - cfY) ^ 2

/-- `make_confounded_plr_data` (/repo/doubleml/datasets.py:1370-1444) for `dim_x = 4`.  `minimise` is `minimize_scalar(f).x`. -/
noncomputable def makeCfPlr (minimise : (ℝ → ℝ) → ℝ) (theta cfY cfD : ℝ) (X : Fin n → Fin 4 → ℝ) (epsY epsD a : Fin n → ℝ) : CfPlr n 4 :=
  let z := zScaled X
  let varA : ℝ := (1 - (-1)) ^ 2 / 12
  let mShort := fun i => -z i 0 + 0.5 * z i 1 - 0.25 * z i 2 - 0.1 * z i 3
  let gammaA := minimise (cfM cfD a epsD)
  let mLong := fun i => mShort i + gammaA * a i
  let d := fun i => mLong i + epsD i
  let g := fun i => 210 + 27.4 * z i 0 + 13.7 * (z i 1 + z i 2 + z i 3)
  let varD := popStd d ^ 2
  let betaA := minimise (cfG cfY a epsY d gammaA varD)
  let gLong := fun i => theta * d i + g i + betaA * a i
  let gShort := fun i => (theta + gammaA * betaA * varA / varD) * d i + g i
  { x := X
    y := fun i => gLong i + epsY i
    d := d
    gLong := gLong
    gShort := gShort
    mLong := mLong
    mShort := mShort
    gammaA := gammaA
    betaA := betaA }

/-! ## Heterogeneous effects and several treatment levels -/

/-- `treatment_effect` of `make_heterogeneous_data` (/repo/doubleml/datasets.py:1509-1520). -/
noncomputable def hetEffect (nX : ℕ) (x0 x1 : ℝ) : ℝ :=
  if nX = 1 then Real.exp (2 * x0) + 3 * Real.sin (4 * x0) else Real.exp (2 * x0) + 3 * Real.sin (4 * x1)

/-- The result of `make_heterogeneous_data`. -/
structure HetOut (n p : ℕ) where
  x : Fin n → Fin p → ℝ
  y : Fin n → ℝ
  d : Fin n → ℝ
  effects : Fin n → ℝ

/-- `make_heterogeneous_data` (/repo/doubleml/datasets.py:1502-1556): `support` the drawn indices, `cy`, `cd` the drawn
coefficients, `eps`, `eta` the errors.  The effect reads column 0, for `n_x = 2` also column 1; missing columns are an
`IndexError`. -/
noncomputable def makeHet {q : ℕ} (nX : ℕ) (binary : Bool) (support : Fin q → Fin p) (cy cd : Fin q → ℝ) (eps eta : Fin n → ℝ)
    (X : Fin n → Fin p → ℝ) : Except Exc (HetOut n p) :=
  if ¬ (nX = 1 ∨ nX = 2) then .error .assertion
  else if p < q then .error .assertion
  else if h : nX ≤ p ∧ 0 < nX then
    let te := fun i => hetEffect nX (X i ⟨0, by omega⟩) (X i ⟨nX - 1, by omega⟩)
    let xd := fun i => ∑ k, X i (support k) * cd k
    let d := fun i => if binary then (if eta i ≤ xd i then (1 : ℝ) else 0) else xd i + eta i
    .ok { x := X
          y := fun i => te i * d i + ∑ k, X i (support k) * cy k + eps i
          d := d
          effects := te }
  else .error .indexError

/-- `treatment_effect` of `make_irm_data_discrete_treatments` (/repo/doubleml/datasets.py:1764-1765). -/
noncomputable def levelEffect (d : ℝ) : ℝ := 15 * (1 / (1 + Real.exp (-d - 1.2 * Real.cos d))) - 2

/-- The result of `make_irm_data_discrete_treatments`. -/
structure LevelOut (n : ℕ) where
  x : Fin n → Fin 5 → ℝ
  y : Fin n → ℝ
  d : Fin n → ℝ
  contD : Fin n → ℝ
  level : Fin n → ℝ
  ite : Fin n → ℝ
  y0 : Fin n → ℝ

/-- `f_reg` and `f_treatment` of `make_irm_data_discrete_treatments` (/repo/doubleml/datasets.py:1756-1762) use the first four
columns as in `make_did_SZ2020`. -/
def firstFour (w : Fin 5 → ℝ) (j : Fin 4) : ℝ := w j.castSucc

/-- `level_bounds[k]`: the quantile of the continuous treatment at `k / n_levels` (/repo/doubleml/datasets.py:1794). -/
noncomputable def levelBound (contD : Fin n → ℝ) (L k : ℕ) : ℝ := quantile contD ((k : ℝ) / L)

/-- `make_irm_data_discrete_treatments` (/repo/doubleml/datasets.py:1733-1810) for `dim_x = 5`, `n_levels` an integer: `epsY`, `epsD` the
errors, `eta` the uniform draws. -/
noncomputable def makeLevels (L : ℤ) (linear : Bool) (xi : ℝ) (X : Fin n → Fin 5 → ℝ) (epsY epsD eta : Fin n → ℝ) : Except Exc (LevelOut n) :=
  if L < 2 then .error .valueError
  else
    let f := if linear then X else zScaled5 X
    let g := fun i => szReg (firstFour (f i))
    let contD := fun i => szPs xi (firstFour (f i)) + epsD i
    let level := fun i => (((List.range (L.toNat - 1)).map fun k => if levelBound contD L.toNat (k + 1) ≤ contD i then (1 : ℝ) else 0).sum) + 1
    let d := fun i => (if 1 / (L : ℝ) ≤ eta i then (1 : ℝ) else 0) * level i
    let ite := fun i => levelEffect (contD i)
    let y0 := fun i => g i + epsY i
    .ok { x := X
          y := fun i => ite i * (if 0 < d i then 1 else 0) + y0 i
          d := d
          contD := contD
          level := level
          ite := ite
          y0 := y0 }

/-! ## Regression discontinuity -/

/-- The result of `make_simple_rdd_data`. -/
structure RddOut (n : ℕ) where
  score : Fin n → ℝ
  y : Fin n → ℝ
  d : Fin n → ℝ
  y0 : Fin n → ℝ
  y1 : Fin n → ℝ

/-- `Polynomial(np.arange(p + 1))(x)` (/repo/doubleml/rdd/datasets/simple_dgp.py:69). -/
def covPoly (deg : ℕ) (x : ℝ) : ℝ := ((List.range (deg + 1)).map fun (k : ℕ) => (k : ℝ) * x ^ k).sum

/-- The regression functions of `make_simple_rdd_data` (/repo/doubleml/rdd/datasets/simple_dgp.py:65-73): the term of the
covariates, without and with treatment. -/
noncomputable def rddCov (deg : ℕ) (x : Fin p → ℝ) : ℝ := if deg = 0 then 0 else ∑ j, covPoly deg (x j)

/-- See `rddCov`. -/
noncomputable def rddG0 (s : ℝ) : ℝ := 0.1 * s ^ 2

/-- See `rddCov`. -/
noncomputable def rddG1 (tau a s : ℝ) (x : Fin p → ℝ) : ℝ := tau + 0.1 * s ^ 2 - 0.5 * s ^ 2 + a * (∑ j, x j) * s

/-- The probability of treatment (/repo/doubleml/rdd/datasets/simple_dgp.py:86-92); for a sharp design the intended treatment. -/
noncomputable def rddProb (fuzzy : Bool) (cutoff : ℝ) (deg : ℕ) (s : ℝ) (x : Fin p → ℝ) : ℝ :=
  let it : ℝ := if cutoff ≤ s then 1 else 0
  if fuzzy then npClip (0.3 + 0.4 * it + 0.01 * s ^ 2 - 0.02 * s ^ 2 * it + 0.2 * rddCov deg x) 0 1 else it

/-- `make_simple_rdd_data` (/repo/doubleml/rdd/datasets/simple_dgp.py:56-102) with a continuous outcome: `e0`, `e1` the errors of
the potential outcomes.  A binomial draw with one trial and probability `q` is one if an independent uniform draw `b` is less than
`q` (the distribution of the draw is modelled, not numpy's algorithm). -/
noncomputable def makeRdd (fuzzy : Bool) (cutoff a tau : ℝ) (deg : ℕ) (score : Fin n → ℝ) (X : Fin n → Fin p → ℝ) (e0 e1 b : Fin n → ℝ) : RddOut n :=
  let y0 := fun i => rddG0 (score i) + rddCov deg (X i) + e0 i
  let y1 := fun i => rddG1 tau a (score i) (X i) + rddCov deg (X i) + e1 i
  let it := fun i => if cutoff ≤ score i then (1 : ℝ) else 0
  let d := fun i => if fuzzy then (if b i < rddProb fuzzy cutoff deg (score i) (X i) then (1 : ℝ) else 0) else it i
  { score := score
    y := fun i => y0 i * (1 - d i) + y1 i * d i
    d := d
    y0 := y0
    y1 := y1 }

end DML
