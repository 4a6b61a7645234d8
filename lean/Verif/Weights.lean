import Verif.Py
import Verif.Stats

/-!
# Weights of interactive models

`_check_weights` (/repo/doubleml/utils/_checks.py:235-282) and how `DoubleMLIRM` / `DoubleMLAPO` store and use the
weights.
-/

namespace DML

/-- A `numpy.ndarray` of floats: its shape and its entries in C order. -/
structure NdArr where
  shape : List ℕ
  entries : List ℝ

/-- An array that numpy can build: as many entries as the shape says. -/
def NdArr.WF (a : NdArr) : Prop := a.entries.length = a.shape.prod

/-- A value of the dictionary `weights`: an array or an object without attribute `shape`. -/
inductive WVal
  | arr (a : NdArr)
  | other

/-- The argument `weights`: `None`, an array, a dictionary (keys are unique) or something else. -/
inductive WArg
  | none
  | arr (a : NdArr)
  | dict (kv : List (String × WVal))
  | other

/-- `score`: all values other than `"ATE"` and `"ATTE"` are rejected before the weights are looked at. -/
inductive WScore | ate | atte
  deriving DecidableEq

/-- Value of a dictionary at a key. -/
def wLookup (kv : List (String × WVal)) (k : String) : Except Exc WVal :=
  match kv.find? fun p => p.1 == k with
  | some p => .ok p.2
  | Option.none => .error .keyError

/-- `weights[key].shape != expected`. -/
def wShape (v : WVal) (expected : List ℕ) : Except Exc NdArr :=
  match v with
  | .other => .error .attributeError
  | .arr a => if a.shape = expected then .ok a else .error .valueError

/-- Lines 242-248: checks of an array. -/
noncomputable def checkWeightArray (a : NdArr) (nObs : ℕ) : Except Exc Unit :=
  if a.shape.length ≠ 1 ∨ a.shape.head? ≠ some nObs then .error .valueError
  else if ¬ ∀ x ∈ a.entries, 0 ≤ x then .error .valueError
  else if a.entries.sum = 0 then .error .valueError
  else .ok ()

/-- Lines 262-281: checks of a dictionary. -/
noncomputable def checkWeightDict (kv : List (String × WVal)) (nObs nRep : ℕ) : Except Exc Unit :=
  if ¬ ((∀ k ∈ kv.map Prod.fst, k = "weights" ∨ k = "weights_bar") ∧ "weights" ∈ kv.map Prod.fst ∧
      "weights_bar" ∈ kv.map Prod.fst) then .error .valueError
  else do
    let v ← wLookup kv "weights"
    let a ← wShape v [nObs]
    let v' ← wLookup kv "weights_bar"
    let b ← wShape v' [nObs, nRep]
    signs a b
where
  /-- Lines 277-280. -/
  signs (a b : NdArr) : Except Exc Unit :=
    if ¬ (∀ x ∈ a.entries, 0 ≤ x) ∨ ¬ (∀ x ∈ b.entries, 0 ≤ x) then .error .valueError
    else if a.entries.sum = 0 ∨ b.entries.sum = 0 then .error .valueError
    else .ok ()

/-- Lines 250-258: the special form for the score `"ATTE"` (`np.power(w, 2) - w == 0`). -/
noncomputable def checkWeightAtte (a : NdArr) : Except Exc Unit :=
  if ∀ x ∈ a.entries, x ^ 2 - x = 0 then .ok () else .error .valueError

/-- `_check_weights` (/repo/doubleml/utils/_checks.py:235-282). -/
noncomputable def checkWeights (w : WArg) (score : WScore) (nObs nRep : ℕ) : Except Exc Unit :=
  match w, score with
  | .none, _ => .ok ()
  | .other, _ => .error .typeError
  | .arr a, .ate => checkWeightArray a nObs
  | .arr a, .atte => do
    checkWeightArray a nObs
    checkWeightAtte a
  | .dict _, .atte => .error .typeError
  | .dict kv, .ate => checkWeightDict kv nObs nRep

/-- What the model stores (`_initialize_weights`, /repo/doubleml/irm/irm.py:211-218, irm/apo.py:190-197): the array
`weights` and, if a dictionary was given, `weights_bar`. -/
structure StoredWeights where
  weights : NdArr
  bar : Option NdArr

/-- The array stored under a key; after `_check_weights` the error cases cannot occur. -/
def wArray (kv : List (String × WVal)) (k : String) : Except Exc NdArr := do
  let v ← wLookup kv k
  asArr v
where
  asArr : WVal → Except Exc NdArr
    | .arr a => .ok a
    | .other => .error .attributeError

/-- `_check_weights` followed by `_initialize_weights` (/repo/doubleml/irm/irm.py:176-177). -/
noncomputable def initWeights (w : WArg) (score : WScore) (nObs nRep : ℕ) : Except Exc StoredWeights := do
  checkWeights w score nObs nRep
  store w
where
  store : WArg → Except Exc StoredWeights
    | .none => .ok ⟨⟨[nObs], List.replicate nObs 1⟩, Option.none⟩
    | .arr a => .ok ⟨a, Option.none⟩
    | .dict kv => do
      let a ← wArray kv "weights"
      let b ← wArray kv "weights_bar"
      pure ⟨a, some b⟩
    | .other => .error .typeError

/-- `_get_weights` for the scores `"ATE"` and `"APO"` (/repo/doubleml/irm/irm.py:222-227, irm/apo.py:199-207): for
observation `i` in repetition `k`, the entry of `weights` and the entry of column `k` of `weights_bar`. -/
def StoredWeights.get (s : StoredWeights) (nObs nRep : ℕ) (i : Fin nObs) (k : Fin nRep) : ℝ × ℝ :=
  (s.weights.entries.getD i 0, match s.bar with
    | Option.none => s.weights.entries.getD i 0
    | some b => b.entries.getD (i * nRep + k) 0)

end DML
