import Verif.Framework

/-!
# Specification for framework arithmetic

Independent of the model's operations: what *direct* inference on a linear combination of influence
functions is, and the language of expressions a user can build from frameworks.
-/

namespace DML

variable {n r : ℕ}

/-- An estimator as econometrics sees it: per repetition a point estimate and an influence function
evaluated at the observations. -/
structure Influence (n r : ℕ) where
  theta : Fin r → ℝ
  psi : Fin n → Fin r → ℝ

/-- Direct inference from an influence function with variance scaling `v`:
`se_k = sqrt(mean(psi_k²)/v)`, then median aggregation over repetitions. -/
noncomputable def Influence.direct (I : Influence n r) (v : ℝ) : Block n r where
  allTheta := I.theta
  psi := I.psi
  vsf := v
  allSe := fun k => Real.sqrt ((mean fun i => I.psi i k ^ 2) / v)
  theta := median I.theta
  se := Real.sqrt (median fun k =>
    (Real.sqrt ((mean fun i => I.psi i k ^ 2) / v)) ^ 2 + (I.theta k - median I.theta) ^ 2 / v)

/-- The linear combination `Σ c · (estimate, influence function)` over weighted parameters. -/
def combine (ts : List (ℝ × Block n r)) : Influence n r where
  theta := fun k => (ts.map fun t => t.1 * t.2.allTheta k).sum
  psi := fun i k => (ts.map fun t => t.1 * t.2.psi i k).sum

/-- The variance scaling factor of the first term (all terms agree up to `np.allclose`). -/
def headVsf : List (ℝ × Block n r) → ℝ
  | [] => 0
  | t :: _ => t.2.vsf

/-- A parameter block is *consistent* if its estimates and standard errors are the direct inference on
its own scores.  (Fitted models without clustering produce such blocks, see `C20_framework_consistent`.) -/
def Block.Consistent (b : Block n r) : Prop := b = (Influence.mk b.allTheta b.psi).direct b.vsf

/-- Worst-case bias of a linear combination: `Σ |c| · bound`. -/
noncomputable def combineSens (ts : List (ℝ × Sens n r)) : Sens n r where
  maxBias := fun k => (ts.map fun t => |t.1| * t.2.maxBias k).sum
  psiMaxBias := fun i k => (ts.map fun t => |t.1| * t.2.psiMaxBias i k).sum

/-- Expressions over framework variables. -/
inductive Expr (ι : Type)
  | leaf (i : ι)
  | add (a b : Expr ι)
  | sub (a b : Expr ι)
  | smul (c : ℝ) (a : Expr ι)
  | cat (a b : Expr ι)

namespace Expr
variable {ι : Type}

/-- Run the library's operators on the expression. -/
noncomputable def eval (env : ι → FW n r) : Expr ι → Except Exc (FW n r)
  | leaf i => .ok (env i)
  | add a b => do FW.add (← eval env a) (← eval env b)
  | sub a b => do FW.sub (← eval env a) (← eval env b)
  | smul c a => do FW.smul c (← eval env a)
  | cat a b => do FW.concat [← eval env a, ← eval env b]

/-- The mathematical meaning: for every output parameter the weighted list of input parameters. -/
def terms (env : ι → FW n r) : Expr ι → List (List (ℝ × Block n r))
  | leaf i => (env i).blocks.map fun b => [(1, b)]
  | add a b => List.zipWith (· ++ ·) (terms env a) (terms env b)
  | sub a b => List.zipWith (fun x y => x ++ y.map fun t => (-t.1, t.2)) (terms env a) (terms env b)
  | smul c a => (terms env a).map fun x => x.map fun t => (c * t.1, t.2)
  | cat a b => terms env a ++ terms env b

/-- No scalar multiplication by a negative number *outside the last addition or subtraction*: sums
and differences may contain arbitrary scalars. -/
def SignOK : Expr ι → Prop
  | leaf _ => True
  | add _ _ => True
  | sub _ _ => True
  | smul c a => 0 ≤ c ∧ SignOK a
  | cat a b => SignOK a ∧ SignOK b

/-- The bias bounds of the output parameters: weighted lists of the inputs' bias bounds. -/
def sensTerms (env : ι → FW n r) : Expr ι → List (List (ℝ × Sens n r))
  | leaf i => ((env i).sens.getD []).map fun b => [(1, b)]
  | add a b => List.zipWith (· ++ ·) (sensTerms env a) (sensTerms env b)
  | sub a b =>
    List.zipWith (fun x y => x ++ y.map fun t => (-t.1, t.2)) (sensTerms env a) (sensTerms env b)
  | smul c a => (sensTerms env a).map fun x => x.map fun t => (c * t.1, t.2)
  | cat a b => sensTerms env a ++ sensTerms env b

/-- Number of parameters of the result, `none` if a sum or difference joins different numbers. -/
def dim (p : ι → ℕ) : Expr ι → Option ℕ
  | leaf i => some (p i)
  | add a b => do let x ← dim p a; let y ← dim p b; if x = y then some x else none
  | sub a b => do let x ← dim p a; let y ← dim p b; if x = y then some x else none
  | smul _ a => dim p a
  | cat a b => do let x ← dim p a; let y ← dim p b; some (x + y)

end Expr

/-- What a framework of a fitted, non-clustered model looks like: internally consistent shapes,
admissible benchmark elements, no clusters, one common variance scaling factor. -/
def FW.Plain (A : FW n r) (v : ℝ) : Prop :=
  A.shapesOk ∧ A.cluster = none ∧ (∀ bs ∈ A.bench, ∀ b ∈ bs, b.ok) ∧ ∀ b ∈ A.blocks, b.vsf = v

end DML
