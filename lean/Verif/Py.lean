import Mathlib.Data.Real.Basic

/-!
# Python values and exceptions

Exceptions are values (`Except Exc`), and the arguments whose *type* the code inspects are elements
of `PyVal`.
-/

namespace DML

/-- The exception classes raised by the modelled functions. -/
inductive Exc
  | typeError | valueError | notImplemented | assertion | keyError | attributeError | indexError | zeroDivision
  | runtimeError
  deriving DecidableEq, Repr

/-- The Python values that the argument checks of /repo/doubleml/utils/_checks.py distinguish.
`float` excludes `nan`/`inf` (simplification); `arr` and
`iarr` are one-dimensional float and integer `numpy.ndarray`s. -/
inductive PyVal
  | float (x : ℝ)
  | int (z : ℤ)
  | bool (b : Bool)
  | str (s : String)
  | arr (a : List ℝ)
  | iarr (a : List ℤ)
  | none
  | other

/-- `_check_in_zero_one` (/repo/doubleml/utils/_checks.py:8-23). -/
noncomputable def checkInZeroOne (v : PyVal) (includeZero includeOne : Bool) : Except Exc ℝ :=
  match v with
  | .float x =>
    if includeZero && includeOne then
      (if x < 0 ∨ x > 1 then .error .valueError else .ok x)
    else if !includeZero && includeOne then
      (if x ≤ 0 ∨ x > 1 then .error .valueError else .ok x)
    else if includeZero && !includeOne then
      (if x < 0 ∨ x ≥ 1 then .error .valueError else .ok x)
    else
      (if x ≤ 0 ∨ x ≥ 1 then .error .valueError else .ok x)
  | _ => .error .typeError

/-- `isinstance(value, int)`: Python's `bool` is a subclass of `int`. -/
def PyVal.asInt : PyVal → Option ℤ
  | .int z => some z
  | .bool b => some (if b then 1 else 0)
  | _ => Option.none

/-- `_check_integer` (/repo/doubleml/utils/_checks.py:26-35). -/
def checkInteger (v : PyVal) (lower upper : Option ℤ) : Except Exc ℤ :=
  match v.asInt with
  | Option.none => .error .typeError
  | some z =>
    if (lower.any fun l => decide (z < l)) then .error .valueError
    else if (upper.any fun u => decide (z > u)) then .error .valueError
    else .ok z

/-- `_check_float` without bounds (/repo/doubleml/utils/_checks.py:38-46). -/
def checkFloat : PyVal → Except Exc ℝ
  | .float x => .ok x
  | _ => .error .typeError

/-- `_check_bool` (/repo/doubleml/utils/_checks.py:49-51). -/
def checkBool : PyVal → Except Exc Bool
  | .bool b => .ok b
  | _ => .error .typeError

/-! Characterisations of the validators: exactly which values are accepted. -/

theorem checkInZeroOne_ok_iff (v : PyVal) (iz io : Bool) (x : ℝ) :
    checkInZeroOne v iz io = .ok x ↔
      v = .float x ∧ (if iz then 0 ≤ x else 0 < x) ∧ (if io then x ≤ 1 else x < 1) := by
  cases v with
  | float y =>
    have key : ∀ (P : Prop) [Decidable P],
        ((if P then Except.error Exc.valueError else Except.ok y : Except Exc ℝ) = .ok x ↔
          ¬ P ∧ y = x) := by
      intro P _; split_ifs with h <;> simp [h]
    cases iz <;> cases io <;> simp only [checkInZeroOne, Bool.and_self, Bool.not_false, Bool.not_true,
      Bool.and_true, Bool.and_false, Bool.false_eq_true, if_true, if_false, key, PyVal.float.injEq] <;>
      constructor <;> rintro ⟨h1, h2⟩ <;> subst_vars <;> simp_all [not_or, not_lt, not_le]
  | _ => simp [checkInZeroOne]

theorem checkInZeroOne_error_iff (v : PyVal) (iz io : Bool) (e : Exc) :
    checkInZeroOne v iz io = .error e ↔
      (e = .typeError ∧ ∀ x, v ≠ .float x) ∨
      (e = .valueError ∧ ∃ x, v = .float x ∧
        ¬ ((if iz then 0 ≤ x else 0 < x) ∧ (if io then x ≤ 1 else x < 1))) := by
  cases v with
  | float y =>
    have key : ∀ (P : Prop) [Decidable P],
        ((if P then Except.error Exc.valueError else Except.ok y : Except Exc ℝ) = .error e ↔
          P ∧ e = .valueError) := by
      intro P _; split_ifs with h <;> simp [h, eq_comm]
    cases iz <;> cases io <;> simp only [checkInZeroOne, Bool.and_self, Bool.not_false, Bool.not_true,
      Bool.and_true, Bool.and_false, Bool.false_eq_true, if_true, if_false, key, PyVal.float.injEq,
      ne_eq, forall_eq', and_false, false_or, exists_eq_left', not_and_or, not_le,
      not_lt, gt_iff_lt, ge_iff_le] <;> tauto
  | _ => simp [checkInZeroOne, eq_comm]

/-! ## Exceptions: lemmas about `do` blocks -/

theorem bind_ok {α β : Type} {x : Except Exc α} {f : α → Except Exc β} {z : β}
    (h : (x >>= f) = .ok z) : ∃ a, x = .ok a ∧ f a = .ok z := by
  cases x with
  | error e => cases h
  | ok a => exact ⟨a, rfl, h⟩

theorem mapM_ok {α β : Type} (f : α → Except Exc β) (g : α → β) (l : List α)
    (h : ∀ x ∈ l, f x = .ok (g x)) : l.mapM f = .ok (l.map g) := by
  induction l with
  | nil => rfl
  | cons a l ih =>
    rw [List.mapM_cons, h a (by simp), ih fun x hx => h x (by simp [hx])]
    rfl

theorem mapM_ok_iff {α β : Type} (f : α → Except Exc β) (l : List α) (r : List β) :
    l.mapM f = .ok r ↔ List.Forall₂ (fun a b => f a = .ok b) l r := by
  induction l generalizing r with
  | nil =>
    constructor
    · intro h; cases h; exact .nil
    · intro h; cases h; rfl
  | cons a l ih =>
    rw [List.mapM_cons]
    constructor
    · intro h
      obtain ⟨b, hb, h⟩ := bind_ok h
      obtain ⟨bs, hbs, h⟩ := bind_ok h
      cases h
      exact .cons hb ((ih bs).1 hbs)
    · intro h
      cases h with
      | cons hb hbs => rw [hb, (ih _).2 hbs]; rfl

theorem optMapM_eq_some_iff {α β : Type} (f : α → Option β) (l : List α) (r : List β) :
    l.mapM f = some r ↔ List.Forall₂ (fun a b => f a = some b) l r := by
  induction l generalizing r with
  | nil =>
    constructor
    · intro h; cases h; exact .nil
    · intro h; cases h; rfl
  | cons a l ih =>
    rw [List.mapM_cons]
    constructor
    · intro h
      cases hb : f a with
      | none => rw [hb] at h; cases h
      | some b =>
        rw [hb] at h
        cases hbs : l.mapM f with
        | none => rw [hbs] at h; cases h
        | some bs =>
          rw [hbs] at h; cases h
          exact .cons hb ((ih bs).1 hbs)
    · intro h
      cases h with
      | cons hb hbs => rw [hb, (ih _).2 hbs]; rfl

end DML
