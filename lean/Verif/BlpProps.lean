import Verif.Blp
import Verif.InferenceProps
import Verif.FrameworkProps

/-!
# C46, C54, C62: best linear predictors, GATEs and CATEs
-/

namespace DML

open Finset

variable {n d : ℕ}

/-! ## C46: intervals -/

theorem coverage {l : ℝ} (h0 : 0 < l) (h1 : l < 1) :
    Phi (ppf (1 - (1 - l) / 2)) - Phi (-ppf (1 - (1 - l) / 2)) = l := by
  rw [Phi_neg, Phi_ppf (by linarith) (by linarith)]
  ring

theorem confint_eq (b : Blp n d) (o : OlsRes d) (hm : b.model = some o)
    (root : (Fin d → Fin d → ℝ) → Fin d → Fin d → ℝ) (z : (B : ℕ) → Fin d → Fin B → ℝ) (basis : BasisArg d)
    (joint : Bool) {l : ℝ} (h0 : 0 < l) (h1 : l < 1) (B : ℤ) (hB : 1 ≤ B) :
    b.confint root z basis (.bool joint) (.float l) (.int B) =
      b.tableFor o (root o.omega) (z B.toNat) joint l basis := by
  have e1 : checkInZeroOne (.float l) false false = .ok l := by
    rw [checkInZeroOne_ok_iff]; simp [h0, h1]
  have e2 : checkInteger (.int B) (some 1) none = .ok B := by
    simp [checkInteger, PyVal.asInt, not_lt.2 hB]
  have e3 : b.fitted = .ok o := by unfold Blp.fitted; rw [hm]
  unfold Blp.confint
  rw [e1, e2, e3]
  rfl

theorem predict_unit (o : OlsRes d) (j : Fin d) : o.predict (fun k => if j = k then 1 else 0) = o.params j := by
  unfold OlsRes.predict
  simp

theorem se_unit (o : OlsRes d) (j : Fin d) : o.se (fun k => if j = k then 1 else 0) = o.bse j := by
  unfold OlsRes.se OlsRes.bse
  congr 1
  simp

theorem table_pointwise {B p : ℕ} (o : OlsRes d) (root : Fin d → Fin d → ℝ) (z : Fin d → Fin B → ℝ)
    (rows : Fin p → Fin d → ℝ) {l : ℝ} (h0 : 0 < l) (h1 : l < 1) (q : Fin p) :
    Blp.table o root z rows false l q =
      (o.predict (rows q) - ppf (1 - (1 - l) / 2) * o.se (rows q), o.predict (rows q),
        o.predict (rows q) + ppf (1 - (1 - l) / 2) * o.se (rows q)) := by
  unfold Blp.table
  dsimp only
  rw [if_neg (by simp)]
  have := ppf_one_sub (p := (1 - l) / 2) (by linarith) (by linarith)
  rw [this]
  simp only [neg_mul, sub_neg_eq_add]

/-- **C46, partial (pointwise intervals of evaluated points and GATEs).** For every fitted object and every level in
(0,1) there is one critical value `c`, the normal quantile with central probability exactly `level`, such that the
pointwise intervals are predicted value ± `c` times standard error for every row of every admissible basis, and group
effect ± `c` times its standard error for GATEs.  Missing: the coefficients of a CATE (`C46_violated_coefficients`)
and joint intervals (`C46_violated_joint`), for which the property fails. -/
theorem C46_pointwise_partial (b : Blp n d) (o : OlsRes d) (hm : b.model = some o)
    (root : (Fin d → Fin d → ℝ) → Fin d → Fin d → ℝ) (z : (B : ℕ) → Fin d → Fin B → ℝ) (l : ℝ) (h0 : 0 < l) (h1 : l < 1)
    (B : ℤ) (hB : 1 ≤ B) : ∃ c, 0 < c ∧ Phi c - Phi (-c) = l ∧
      (∀ p (rows : Fin p → Fin d → ℝ), b.confint root z (.given p b.names rows) (.bool false) (.float l) (.int B) =
        .ok ⟨p, none, fun q => (o.predict (rows q) - c * o.se (rows q), o.predict (rows q),
          o.predict (rows q) + c * o.se (rows q))⟩) ∧
      (b.isGate = true → b.confint root z .none (.bool false) (.float l) (.int B) =
        .ok ⟨d, some b.names, fun j => (o.params j - c * o.bse j, o.params j, o.params j + c * o.bse j)⟩) := by
  refine ⟨ppf (1 - (1 - l) / 2), pointCrit_pos h0 h1, coverage h0 h1, ?_, ?_⟩
  · intro p rows
    rw [confint_eq b o hm root z _ _ h0 h1 B hB]
    unfold Blp.tableFor
    dsimp only
    rw [if_pos rfl]
    congr 2
    funext q
    exact table_pointwise o _ _ rows h0 h1 q
  · intro hg
    rw [confint_eq b o hm root z _ _ h0 h1 B hB]
    unfold Blp.tableFor
    dsimp only
    rw [if_pos hg]
    congr 2
    funext q
    rw [table_pointwise o _ _ _ h0 h1 q, predict_unit, se_unit]

/-- **C46 (bases that do not fit).** For valid settings a basis is accepted exactly if its columns have the names of the basis
the object was fitted with, in the same order; and an object that was not fitted gives no intervals at all. -/
theorem C46_rejects (b : Blp n d) (root : (Fin d → Fin d → ℝ) → Fin d → Fin d → ℝ) (z : (B : ℕ) → Fin d → Fin B → ℝ) (joint : Bool)
    (l : ℝ) (h0 : 0 < l) (h1 : l < 1) (B : ℤ) (hB : 1 ≤ B) :
    (∀ o, b.model = some o → ∀ p names (rows : Fin p → Fin d → ℝ),
      ((∃ t, b.confint root z (.given p names rows) (.bool joint) (.float l) (.int B) = .ok t) ↔ names = b.names)) ∧
    (∀ t, b.confint root z .wrongShape (.bool joint) (.float l) (.int B) ≠ .ok t) ∧
    (b.model = none → ∀ basis t, b.confint root z basis (.bool joint) (.float l) (.int B) ≠ .ok t) := by
  refine ⟨?_, ?_, ?_⟩
  · intro o hm p names rows
    rw [confint_eq b o hm root z _ _ h0 h1 B hB]
    unfold Blp.tableFor
    dsimp only
    split_ifs with h
    · exact ⟨fun _ => h, fun _ => ⟨_, rfl⟩⟩
    · exact ⟨fun ⟨_, g⟩ => (by cases g), fun g => absurd g h⟩
  · intro t
    cases hm : b.model with
    | none =>
      intro h
      obtain ⟨_, -, h⟩ := bind_ok h
      obtain ⟨_, -, h⟩ := bind_ok h
      obtain ⟨_, -, h⟩ := bind_ok h
      obtain ⟨o, ho, -⟩ := bind_ok h
      unfold Blp.fitted at ho
      rw [hm] at ho
      cases ho
    | some o =>
      rw [confint_eq b o hm root z _ _ h0 h1 B hB]
      intro h
      cases h
  · intro hm basis t h
    obtain ⟨_, -, h⟩ := bind_ok h
    obtain ⟨_, -, h⟩ := bind_ok h
    obtain ⟨_, -, h⟩ := bind_ok h
    obtain ⟨o, ho, -⟩ := bind_ok h
    unfold Blp.fitted at ho
    rw [hm] at ho
    cases ho

/-- **C46 (what is computed for the coefficients of a CATE).** Without a basis, for objects that are not GATEs, the
intervals (whether or not `joint` is set) use the critical value with central probability `(1 + level) / 2`. -/
theorem C46_coefficients (b : Blp n d) (o : OlsRes d) (hm : b.model = some o) (hg : b.isGate = false)
    (root : (Fin d → Fin d → ℝ) → Fin d → Fin d → ℝ) (z : (B : ℕ) → Fin d → Fin B → ℝ) (joint : Bool) (l : ℝ) (h0 : 0 < l)
    (h1 : l < 1) (B : ℤ) (hB : 1 ≤ B) : ∃ c, 0 < c ∧ Phi c - Phi (-c) = (1 + l) / 2 ∧
      b.confint root z .none (.bool joint) (.float l) (.int B) =
        .ok ⟨d, some b.names, fun j => (o.params j - c * o.bse j, o.params j, o.params j + c * o.bse j)⟩ := by
  have e : ∀ c, 1 - (1 - l) / 2 / 2 = 1 - (1 - c) / 2 ↔ c = (1 + l) / 2 := by intro c; constructor <;> intro h <;> linarith
  have e' := (e ((1 + l) / 2)).2 rfl
  refine ⟨ppf (1 - (1 - l) / 2 / 2), ?_, ?_, ?_⟩
  · rw [e']; exact pointCrit_pos (by linarith) (by linarith)
  · rw [e']; exact coverage (by linarith) (by linarith)
  · rw [confint_eq b o hm root z _ _ h0 h1 B hB]
    unfold Blp.tableFor
    dsimp only
    rw [if_neg (by simp [hg])]
    rfl

/-- **C46 (violated, coefficients of a CATE).** For every fitted CATE object with positive standard errors and every
level, the "pointwise intervals of the given level" for the coefficients are strictly wider on both sides than the
intervals of that level: their actual central probability is `(1 + level) / 2` instead of `level`. -/
theorem C46_violated_coefficients (b : Blp n d) (o : OlsRes d) (hm : b.model = some o) (hg : b.isGate = false)
    (root : (Fin d → Fin d → ℝ) → Fin d → Fin d → ℝ) (z : (B : ℕ) → Fin d → Fin B → ℝ) (l : ℝ) (h0 : 0 < l)
    (h1 : l < 1) (B : ℤ) (hB : 1 ≤ B) (hse : ∀ j, 0 < o.bse j) (c : ℝ) (hc : Phi c - Phi (-c) = l) :
    ∃ rows, b.confint root z .none (.bool false) (.float l) (.int B) = .ok ⟨d, some b.names, rows⟩ ∧
      ∀ j, (rows j).1 < o.params j - c * o.bse j ∧ o.params j + c * o.bse j < (rows j).2.2 := by
  obtain ⟨c', hc0, hc', heq⟩ := C46_coefficients b o hm hg root z false l h0 h1 B hB
  refine ⟨_, heq, fun j => ?_⟩
  have hcc : c < c' := by
    rw [Phi_neg] at hc hc'
    apply Phi_strictMono.lt_iff_lt.1
    linarith
  have := mul_lt_mul_of_pos_right hcc (hse j)
  constructor
  · show o.params j - c' * o.bse j < _
    linarith
  · show _ < o.params j + c' * o.bse j
    linarith

/-- A CATE object with one constant regressor, estimate 0 and standard error 1. -/
def exBlp (gate : Bool) : Blp 1 1 := ⟨fun _ => 0, ["const"], fun _ _ => 1, gate, some ⟨fun _ => 0, fun _ _ => 1⟩⟩

/-- Non-vacuity of the two theorems. -/
example : (exBlp false).model = some ⟨fun _ => 0, fun _ _ => 1⟩ ∧ (exBlp false).isGate = false ∧
    ∀ j, 0 < (⟨fun _ => 0, fun _ _ => 1⟩ : OlsRes 1).bse j :=
  ⟨rfl, rfl, fun j => by simp [OlsRes.bse]⟩

/-! ### Joint intervals -/

/-- The critical value the property demands: the `level` quantile, over the bootstrap repetitions, of the largest
absolute studentised deviation over the evaluated points. -/
noncomputable def jointSpec {B p : ℕ} (t : Fin B → Fin p → ℝ) (level : ℝ) : ℝ :=
  quantile (fun b => maxList (List.ofFn fun q => |t b q|)) level

/-- **C46 (what is computed for joint intervals).** The critical value is the quantile over the *points* of the maximum
over the *bootstrap repetitions*.  For a single evaluated point it is therefore the largest absolute bootstrap
statistic, whatever the level. -/
theorem C46_joint_single {B : ℕ} (o : OlsRes d) (root : Fin d → Fin d → ℝ) (z : Fin d → Fin B → ℝ) (row : Fin d → ℝ)
    (l : ℝ) : maxT o root z (fun _ : Fin 1 => row) l =
      maxList (List.ofFn fun b => |bootSamples o root z (fun _ : Fin 1 => row) b 0|) := by
  unfold maxT
  rw [quantile_one]
  rfl

/-- **C46 (joint intervals and levels).** Joint intervals are nested: those of a larger level contain those of a smaller one,
and both are centred at the predicted value. -/
theorem C46_joint_levels (b : Blp n d) (o : OlsRes d) (hm : b.model = some o) (root : (Fin d → Fin d → ℝ) → Fin d → Fin d → ℝ)
    (z : (B : ℕ) → Fin d → Fin B → ℝ) {l l' : ℝ} (h0 : 0 < l) (hl : l ≤ l') (h1 : l' < 1) (B : ℤ) (hB : 1 ≤ B) (p : ℕ)
    (rows : Fin p → Fin d → ℝ) :
    ∃ t t' : Fin p → ℝ × ℝ × ℝ,
      b.confint root z (.given p b.names rows) (.bool true) (.float l) (.int B) = .ok ⟨p, none, t⟩ ∧
      b.confint root z (.given p b.names rows) (.bool true) (.float l') (.int B) = .ok ⟨p, none, t'⟩ ∧
      ∀ q, (t q).2.1 = o.predict (rows q) ∧ (t' q).2.1 = o.predict (rows q) ∧
        (t q).2.1 - (t q).1 = (t q).2.2 - (t q).2.1 ∧ (t' q).1 ≤ (t q).1 ∧ (t q).2.2 ≤ (t' q).2.2 := by
  refine ⟨Blp.table o (root o.omega) (z B.toNat) rows true l, Blp.table o (root o.omega) (z B.toNat) rows true l', ?_, ?_, fun q => ?_⟩
  · rw [confint_eq b o hm root z _ _ h0 (hl.trans_lt h1) B hB]
    unfold Blp.tableFor
    dsimp only
    rw [if_pos rfl]
  · rw [confint_eq b o hm root z _ _ (h0.trans_le hl) h1 B hB]
    unfold Blp.tableFor
    dsimp only
    rw [if_pos rfl]
  · have hq : maxT o (root o.omega) (z B.toNat) rows l ≤ maxT o (root o.omega) (z B.toNat) rows l' :=
      quantile_mono_level _ h0.le hl h1.le
    have hs : 0 ≤ o.se (rows q) := Real.sqrt_nonneg _
    have := mul_le_mul_of_nonneg_right hq hs
    unfold Blp.table
    dsimp only
    rw [if_pos rfl, if_pos rfl]
    refine ⟨rfl, rfl, by ring, ?_, ?_⟩ <;> dsimp only <;> linarith

/-- **C46 (before `fit`).** With valid settings the only answer is a `ValueError`. -/
theorem C46_before_fit (b : Blp n d) (hm : b.model = none) (root : (Fin d → Fin d → ℝ) → Fin d → Fin d → ℝ)
    (z : (B : ℕ) → Fin d → Fin B → ℝ) (basis : BasisArg d) (joint : Bool) {l : ℝ} (h0 : 0 < l) (h1 : l < 1) (B : ℤ) (hB : 1 ≤ B) :
    b.confint root z basis (.bool joint) (.float l) (.int B) = .error .valueError := by
  have e1 : checkInZeroOne (.float l) false false = .ok l := by
    rw [checkInZeroOne_ok_iff]; simp [h0, h1]
  have e2 : checkInteger (.int B) (some 1) none = .ok B := by
    simp [checkInteger, PyVal.asInt, not_lt.2 hB]
  unfold Blp.confint Blp.fitted
  rw [e1, e2, hm]
  rfl

/-- Two draws, 0 and 1, for one regressor. -/
def exZ (B : ℕ) (_ : Fin 1) (b : Fin B) : ℝ := if b.val = 0 then 0 else 1

theorem exBoot (b : Fin 2) (q : Fin 1) :
    bootSamples (⟨fun _ => 0, fun _ _ => 1⟩ : OlsRes 1) (fun _ _ => 1) (exZ 2) (fun (_ : Fin 1) (_ : Fin 1) => 1) b q =
      if b.val = 0 then 0 else 1 := by
  simp [bootSamples, OlsRes.se, exZ]

/-- **C46 (violated, joint intervals).** The joint interval of a GATE object with one group, level 1/2 and two
bootstrap repetitions with statistics 0 and 1: the demanded critical value is 1/2, the interval returned is
`[-1, 1]`; and it is the same at every level. -/
theorem C46_violated_joint : ∃ (root : (Fin 1 → Fin 1 → ℝ) → Fin 1 → Fin 1 → ℝ) (o : OlsRes 1),
    (exBlp true).model = some o ∧
    jointSpec (bootSamples o (root o.omega) (exZ 2) (fun (_ : Fin 1) (_ : Fin 1) => 1)) (1 / 2) = 1 / 2 ∧
    o.se (fun _ => 1) = 1 ∧
    ∀ l, 0 < l → l < 1 → (exBlp true).confint root exZ .none (.bool true) (.float l) (.int 2) =
      .ok ⟨1, some ["const"], fun _ => (-1, 0, 1)⟩ := by
  refine ⟨id, ⟨fun _ => 0, fun _ _ => 1⟩, rfl, ?_, by simp [OlsRes.se], ?_⟩
  · have hb : (fun b : Fin 2 => maxList (List.ofFn fun q : Fin 1 =>
        |bootSamples (⟨fun _ => 0, fun _ _ => 1⟩ : OlsRes 1) (id fun _ _ => 1) (exZ 2) (fun (_ : Fin 1) (_ : Fin 1) => 1) b q|))
        = fun b : Fin 2 => if b.val = 0 then 0 else 1 := by
      funext b
      simp only [id, exBoot]
      fin_cases b <;> simp [maxList]
    unfold jointSpec
    rw [hb]
    have hk : ∀ k : Fin 2, kth (fun b : Fin 2 => if b.val = 0 then (0 : ℝ) else 1) k = if k.val = 0 then 0 else 1 := by
      intro k
      have hmono : Monotone ((fun b : Fin 2 => if b.val = 0 then (0 : ℝ) else 1) ∘ Equiv.refl (Fin 2)) := by
        intro a b hab
        fin_cases a <;> fin_cases b <;> simp_all
      exact kth_eq_of_monotone hmono k
    unfold quantile
    rw [dif_pos (by norm_num)]
    dsimp only
    have hfl : ⌊(1 / 2 : ℝ) * (((2 : ℕ) : ℝ) - 1)⌋₊ = 0 := by
      rw [Nat.floor_eq_zero]; norm_num
    simp only [hk, hfl]
    norm_num
  · intro l h0 h1
    rw [confint_eq (exBlp true) ⟨fun _ => 0, fun _ _ => 1⟩ rfl _ _ _ _ h0 h1 2 (by norm_num)]
    unfold Blp.tableFor
    dsimp only
    rw [if_pos (show (exBlp true).isGate = true from rfl)]
    have hrow : (fun q j : Fin 1 => if q = j then (1 : ℝ) else 0) = fun _ _ => 1 := by
      funext q j
      rw [if_pos (Subsingleton.elim _ _)]
    rw [hrow]
    have hmax : maxT (⟨fun _ => 0, fun _ _ => 1⟩ : OlsRes 1) (id fun _ _ => 1) (exZ (2 : ℤ).toNat)
        (fun (_ : Fin 1) (_ : Fin 1) => 1) l = 1 := by
      rw [C46_joint_single]
      show maxList (List.ofFn fun b : Fin 2 => |bootSamples _ _ (exZ 2) _ b 0|) = 1
      simp only [id, exBoot]
      simp [maxList]
    congr 2
    funext q
    unfold Blp.table
    dsimp only
    rw [if_pos rfl, hmax]
    simp [OlsRes.predict, OlsRes.se]

/-! ## C54: group indicators -/

/-- **C54 (boolean indicators).** Data frames with boolean columns only are accepted unchanged. -/
theorem C54_bool (cols : List (String × GCol n)) (h0 : cols ≠ []) (h : ∀ c ∈ cols, ∃ v, c.2 = .bool v) :
    gateGroups (.frame cols) = .ok cols := by
  unfold gateGroups
  dsimp only
  have h1 : (cols.all fun c => c.2.isBool) = true := by
    rw [List.all_eq_true]
    intro c hc
    obtain ⟨v, hv⟩ := h c hc
    rw [hv]; rfl
  have h2 : (cols.all fun c => c.2.isInt) = false := by
    rw [Bool.eq_false_iff]
    intro hall
    rw [List.all_eq_true] at hall
    obtain ⟨c, hc⟩ := List.exists_mem_of_ne_nil _ h0
    obtain ⟨v, hv⟩ := h c hc
    have := hall c hc
    rw [hv] at this
    cases this
  rw [h1, h2]
  rfl

theorem mem_strLevels {v : Fin n → Option String} {s : String} : s ∈ strLevels v ↔ ∃ i, v i = some s := by
  unfold strLevels
  rw [List.mem_mergeSort, List.mem_dedup, List.mem_filterMap]
  simp

theorem strLevels_nodup (v : Fin n → Option String) : (strLevels v).Nodup := by
  unfold strLevels
  exact (List.mergeSort_perm _ _).nodup_iff.2 (List.nodup_dedup _)

/-- **C54 (one categorical column).** A single column of strings is accepted; it is replaced by one indicator per value
that occurs, named `Group_<value>`, with different names, and every observation belongs to the group of its value and
to no other. -/
theorem C54_categorical (name : String) (v : Fin n → Option String) : ∃ cols,
    gateGroups (.frame [(name, .str v)]) = .ok cols ∧ (cols.map Prod.fst).Nodup ∧
    (∀ nm, nm ∈ cols.map Prod.fst ↔ ∃ i s, v i = some s ∧ nm = "Group_" ++ s) ∧
    ∀ c ∈ cols, ∃ s g, c = ("Group_" ++ s, GCol.bool g) ∧ ∀ i, g i = true ↔ v i = some s := by
  refine ⟨getDummies (name, .str v), ?_, ?_, ?_, ?_⟩
  · simp [gateGroups, GCol.isBool]
  · unfold getDummies
    dsimp only
    rw [List.map_map]
    refine (strLevels_nodup v).map ?_
    intro a b hab
    have hab' : "Group_" ++ a = "Group_" ++ b := hab
    have := congrArg String.toList hab'
    rw [String.toList_append, String.toList_append] at this
    exact String.toList_inj.1 (List.append_cancel_left this)
  · intro nm
    simp only [getDummies, List.map_map, List.mem_map, mem_strLevels, Function.comp]
    constructor
    · rintro ⟨s, ⟨i, hi⟩, rfl⟩; exact ⟨i, s, hi, rfl⟩
    · rintro ⟨i, s, hi, rfl⟩; exact ⟨s, ⟨i, hi⟩, rfl⟩
  · intro c hc
    simp only [getDummies, List.mem_map] at hc
    obtain ⟨s, -, rfl⟩ := hc
    exact ⟨s, _, rfl, fun i => by simp⟩

/-- **C54, partial (integer indicators).** A single integer column is accepted unchanged (whatever its values).
Missing: several integer columns, which are rejected (`C54_violated`). -/
theorem C54_one_int_partial (name : String) (v : Fin n → ℤ) :
    gateGroups (.frame [(name, .int v)]) = .ok [(name, .int v)] := by
  simp [gateGroups, GCol.isBool, getDummies]

/-- **C54 (violated).** Every data frame with at least two dummy-coded integer columns is rejected with the very error
that says that integer columns are allowed. -/
theorem C54_violated (cols : List (String × GCol n)) (h2 : 2 ≤ cols.length) (h : ∀ c ∈ cols, ∃ v, c.2 = .int v) :
    gateGroups (.frame cols) = .error .typeError := by
  unfold gateGroups
  dsimp only
  have h1 : (cols.all fun c => c.2.isInt) = true := by
    rw [List.all_eq_true]
    intro c hc
    obtain ⟨v, hv⟩ := h c hc
    rw [hv]; rfl
  rw [h1, Bool.or_true, if_pos rfl]
  match cols, h2 with
  | _ :: _ :: _, _ => rfl

/-- **C54 (everything else).** Other frames with several columns are rejected, as are objects that are not frames. -/
theorem C54_rejected (cols : List (String × GCol n)) (h2 : cols.length ≠ 1) (h : ∃ c ∈ cols, ∀ v, c.2 ≠ .bool v) :
    gateGroups (.frame cols) = .error .typeError ∧ gateGroups (.other : GArg n) = .error .typeError := by
  refine ⟨?_, rfl⟩
  unfold gateGroups
  dsimp only
  have h1 : (cols.all fun c => c.2.isBool) = false := by
    rw [Bool.eq_false_iff]
    intro hall
    rw [List.all_eq_true] at hall
    obtain ⟨c, hc, hv⟩ := h
    have := hall c hc
    cases hcv : c.2 with
    | bool v => exact hv v hcv
    | int v => rw [hcv] at this; cases this
    | float v => rw [hcv] at this; cases this
    | str v => rw [hcv] at this; cases this
  rw [h1]
  simp only [Bool.not_false, Bool.true_or, if_true]
  match cols, h2 with
  | [], _ => rfl
  | _ :: _ :: _, _ => rfl

example : gateGroups (.frame [("a", GCol.int ![1, 0]), ("b", GCol.int ![0, 1])]) = .error .typeError :=
  C54_violated _ (by simp) (by
    intro c hc
    simp only [List.mem_cons, List.not_mem_nil, or_false] at hc
    rcases hc with rfl | rfl
    · exact ⟨_, rfl⟩
    · exact ⟨_, rfl⟩)

/-! ## C62: what GATEs and CATEs estimate -/

/-- The specification of the external least squares routine: the normal equations, and the heteroscedasticity robust
covariance `HC0`, `(X'X) Ω (X'X) = X' diag(e²) X`. -/
structure LeastSquares (s : Fin n → ℝ) (X : Fin n → Fin d → ℝ) (o : OlsRes d) : Prop where
  normal : ∀ j, ∑ i, X i j * (s i - ∑ k, X i k * o.params k) = 0
  hc0 : ∀ j k, ∑ a, ∑ c, (∑ i, X i j * X i a) * o.omega a c * (∑ i, X i c * X i k) =
    ∑ i, X i j * X i k * (s i - ∑ k, X i k * o.params k) ^ 2

/-- Mutually exclusive columns. -/
def Exclusive (X : Fin n → Fin d → ℝ) : Prop := ∀ i j k, j ≠ k → X i j = 0 ∨ X i k = 0

theorem exclusive_mul {X : Fin n → Fin d → ℝ} (h : Exclusive X) {i : Fin n} {j k : Fin d} (hjk : j ≠ k) : X i j * X i k = 0 :=
  mul_eq_zero.2 (h i j k hjk)

theorem exclusive_params {s : Fin n → ℝ} {X : Fin n → Fin d → ℝ} {o : OlsRes d} (hX : Exclusive X)
    (ho : LeastSquares s X o) (j : Fin d) : (∑ i, X i j * X i j) * o.params j = ∑ i, X i j * s i := by
  have h := ho.normal j
  have e : ∀ i, X i j * (s i - ∑ k, X i k * o.params k) = X i j * s i - X i j * X i j * o.params j := by
    intro i
    rw [mul_sub, mul_sum, Finset.sum_eq_single j]
    · ring
    · intro k _ hk
      rw [← mul_assoc, exclusive_mul hX (Ne.symm hk), zero_mul]
    · simp
  simp only [e, sum_sub_distrib, ← sum_mul] at h
  linarith

theorem exclusive_omega {s : Fin n → ℝ} {X : Fin n → Fin d → ℝ} {o : OlsRes d} (hX : Exclusive X)
    (ho : LeastSquares s X o) (j : Fin d) :
    (∑ i, X i j * X i j) ^ 2 * o.omega j j = ∑ i, (X i j * (s i - X i j * o.params j)) ^ 2 := by
  have h := ho.hc0 j j
  have hz : ∀ j k, j ≠ k → ∑ i, X i j * X i k = 0 := by
    intro j k hjk
    exact Finset.sum_eq_zero fun i _ => exclusive_mul hX hjk
  have e1 : ∑ a, ∑ c, (∑ i, X i j * X i a) * o.omega a c * (∑ i, X i c * X i j) =
      (∑ i, X i j * X i j) ^ 2 * o.omega j j := by
    rw [Finset.sum_eq_single j]
    · rw [Finset.sum_eq_single j]
      · ring
      · intro c _ hc
        rw [hz c j hc, mul_zero]
      · simp
    · intro a _ ha
      apply Finset.sum_eq_zero
      intro c _
      rw [hz j a (Ne.symm ha), zero_mul, zero_mul]
    · simp
  rw [e1] at h
  rw [h]
  apply Finset.sum_congr rfl
  intro i _
  have e2 : X i j * (s i - ∑ k, X i k * o.params k) = X i j * (s i - X i j * o.params j) := by
    rw [mul_sub, mul_sub, mul_sum, Finset.sum_eq_single j]
    · intro k _ hk
      rw [← mul_assoc, exclusive_mul hX (Ne.symm hk), zero_mul]
    · simp
  rw [← e2]
  ring

/-- The members of a group. -/
noncomputable def members (X : Fin n → Fin d → ℝ) (j : Fin d) : Finset (Fin n) := univ.filter fun i => X i j = 1

/-- Dummy coded columns. -/
def Dummy (X : Fin n → Fin d → ℝ) : Prop := ∀ i j, X i j = 0 ∨ X i j = 1

theorem dummy_sum {X : Fin n → Fin d → ℝ} (h : Dummy X) (j : Fin d) (f : Fin n → ℝ) :
    ∑ i, X i j * f i = ∑ i ∈ members X j, f i := by
  unfold members
  rw [Finset.sum_filter]
  apply Finset.sum_congr rfl
  intro i _
  rcases h i j with h0 | h1
  · rw [h0, zero_mul, if_neg (by norm_num)]
  · rw [h1, one_mul, if_pos rfl]

/-- **C62 (GATEs of IRM and APO are group means).** For mutually exclusive dummy-coded groups the effect reported for a
non-empty group is the mean of the orthogonal signal over the members of the group, and its standard error is the
root of the sum of squared deviations from that mean divided by the size of the group. -/
theorem C62_gate_mean (ols : Ols) (psiB : Fin n → ℝ) (g : GArg n) (cols : List (String × GCol n))
    (b : Blp n cols.length) (h : irmGate ols 1 psiB g = .ok ⟨cols, b⟩) (hX : Exclusive (colMatrix cols))
    (hd : Dummy (colMatrix cols)) (ho : LeastSquares psiB (colMatrix cols) (ols psiB (colMatrix cols))) :
    ∃ o, b.model = some o ∧ ∀ j, 0 < (members (colMatrix cols) j).card →
      o.params j = (∑ i ∈ members (colMatrix cols) j, psiB i) / (members (colMatrix cols) j).card ∧
      o.bse j = Real.sqrt (∑ i ∈ members (colMatrix cols) j, (psiB i - o.params j) ^ 2) /
        (members (colMatrix cols) j).card := by
  unfold irmGate at h
  obtain ⟨cols', hc, h⟩ := bind_ok h
  obtain ⟨b', hb, h⟩ := bind_ok h
  cases h
  unfold irmCate at hb
  rw [if_neg (by simp)] at hb
  obtain ⟨b₀, hb0, hb⟩ := bind_ok hb
  cases hb
  unfold blpCreate at hb0
  split_ifs at hb0
  cases hb0
  refine ⟨_, rfl, fun j hj => ?_⟩
  have hcard : (∑ i, colMatrix cols i j * colMatrix cols i j) = (members (colMatrix cols) j).card := by
    rw [dummy_sum hd]
    rw [Finset.sum_congr rfl (g := fun _ => (1 : ℝ))]
    · simp
    · intro i hi
      exact (Finset.mem_filter.1 hi).2
  have hne : ((members (colMatrix cols) j).card : ℝ) ≠ 0 := by exact_mod_cast hj.ne'
  constructor
  · rw [eq_div_iff hne, mul_comm, ← hcard, exclusive_params hX ho j, dummy_sum hd]
  · have hom := exclusive_omega hX ho j
    rw [hcard] at hom
    have e : ∑ i, (colMatrix cols i j * (psiB i - colMatrix cols i j * (ols psiB (colMatrix cols)).params j)) ^ 2 =
        ∑ i ∈ members (colMatrix cols) j, (psiB i - (ols psiB (colMatrix cols)).params j) ^ 2 := by
      rw [← dummy_sum hd]
      apply Finset.sum_congr rfl
      intro i _
      rcases hd i j with h0 | h1
      · rw [h0]; ring
      · rw [h1]; ring
    rw [e] at hom
    unfold OlsRes.bse
    show Real.sqrt _ = Real.sqrt (∑ i ∈ members (colMatrix cols) j, (psiB i - (ols psiB (colMatrix cols)).params j) ^ 2) / _
    rw [← hom, Real.sqrt_mul (by positivity), Real.sqrt_sq (by positivity)]
    field_simp

/-- The columns of a categorical variable. -/
theorem categorical_cols (name : String) (v : Fin n → Option String) : ∃ cols,
    gateGroups (.frame [(name, .str v)]) = .ok cols ∧ (cols.map Prod.fst).Nodup ∧
    (∀ nm, nm ∈ cols.map Prod.fst ↔ ∃ i s, v i = some s ∧ nm = "Group_" ++ s) ∧
    (∀ j : Fin cols.length, ∃ s, (cols[j]).1 = "Group_" ++ s ∧ ∀ i, colMatrix cols i j = if v i = some s then 1 else 0) ∧
    Dummy (colMatrix cols) ∧ Exclusive (colMatrix cols) := by
  obtain ⟨cols, hc, hn, hnm, hcol⟩ := C54_categorical name v
  have hval : ∀ j : Fin cols.length, ∃ s, (cols[j]).1 = "Group_" ++ s ∧ ∀ i, colMatrix cols i j = if v i = some s then 1 else 0 := by
    intro j
    obtain ⟨s, g, e, hg⟩ := hcol cols[j] (List.getElem_mem _)
    refine ⟨s, by rw [e], fun i => ?_⟩
    unfold colMatrix
    rw [e]
    show (if g i then (1 : ℝ) else 0) = _
    by_cases h : g i = true
    · rw [if_pos h, if_pos ((hg i).1 h)]
    · rw [if_neg h, if_neg fun h' => h ((hg i).2 h')]
  have hd : Dummy (colMatrix cols) := fun i j => by
    obtain ⟨s, -, h⟩ := hval j
    rw [h i]
    split_ifs
    · exact Or.inr rfl
    · exact Or.inl rfl
  have hX : Exclusive (colMatrix cols) := fun i j k hjk => by
    obtain ⟨s, e, h⟩ := hval j
    obtain ⟨s', e', h'⟩ := hval k
    rw [h i, h' i]
    by_cases h1 : v i = some s
    · by_cases h2 : v i = some s'
      · exfalso
        have : s = s' := Option.some.inj (h1.symm.trans h2)
        rw [← this, ← e] at e'
        refine hjk (Fin.ext ?_)
        have := List.Nodup.getElem_inj_iff hn (i := j.val) (hi := by rw [List.length_map]; exact j.2) (j := k.val)
          (hj := by rw [List.length_map]; exact k.2)
        refine this.1 ?_
        rw [List.getElem_map, List.getElem_map]
        exact e'.symm
      · exact Or.inr (if_neg h2)
    · exact Or.inl (if_neg h1)
  exact ⟨cols, hc, hn, hnm, hval, hd, hX⟩

/-- **C62 (groups of a categorical column).** For one column of strings there is a group effect for every value that occurs, and
it is the mean of the signal over the observations with that value, with the standard error of a mean. -/
theorem C62_categorical_groups (ols : Ols) (psiB : Fin n → ℝ) (name : String) (v : Fin n → Option String)
    (ho : ∀ cols, gateGroups (.frame [(name, .str v)]) = .ok cols → LeastSquares psiB (colMatrix cols) (ols psiB (colMatrix cols))) :
    ∃ cols b o, irmGate ols 1 psiB (.frame [(name, .str v)]) = .ok ⟨cols, b⟩ ∧ b.model = some o ∧
      ∀ i s, v i = some s → ∃ j : Fin cols.length, (cols[j]).1 = "Group_" ++ s ∧
        o.params j = (∑ k ∈ univ.filter fun k => v k = some s, psiB k) / (univ.filter fun k => v k = some s).card ∧
        o.bse j = Real.sqrt (∑ k ∈ univ.filter fun k => v k = some s, (psiB k - o.params j) ^ 2) /
          (univ.filter fun k => v k = some s).card := by
  obtain ⟨cols, hc, hn, hnm, hval, hd, hX⟩ := categorical_cols name v
  have hg : irmGate ols 1 psiB (.frame [(name, .str v)]) =
      .ok ⟨cols, Blp.fit ols ⟨psiB, cols.map Prod.fst, colMatrix cols, true, none⟩⟩ := by
    unfold irmGate irmCate blpCreate
    rw [hc]
    simp only [Bind.bind, Except.bind, if_neg (show ¬ (1 : ℕ) ≠ 1 by simp), if_pos hn]
    rfl
  obtain ⟨o, hm, hp⟩ := C62_gate_mean ols psiB _ cols _ hg hX hd (ho _ hc)
  refine ⟨cols, _, o, hg, hm, fun i s hi => ?_⟩
  obtain ⟨c, hcm, hce⟩ := List.mem_map.1 ((hnm ("Group_" ++ s)).2 ⟨i, s, hi, rfl⟩)
  obtain ⟨j, hj, rfl⟩ := List.getElem_of_mem hcm
  obtain ⟨s', e, h⟩ := hval ⟨j, hj⟩
  have hs : s' = s := by
    have e2 : "Group_" ++ s' = "Group_" ++ s := e.symm.trans hce
    have := congrArg String.toList e2
    rw [String.toList_append, String.toList_append] at this
    exact String.toList_inj.1 (List.append_cancel_left this)
  subst hs
  have hmem : members (colMatrix cols) ⟨j, hj⟩ = univ.filter fun k => v k = some s' := by
    unfold members
    refine Finset.filter_congr fun k _ => ?_
    rw [h k]
    split_ifs with h1
    · exact ⟨fun _ => h1, fun _ => rfl⟩
    · exact ⟨fun h2 => absurd h2 (by norm_num), fun h2 => absurd h2 h1⟩
  refine ⟨⟨j, hj⟩, hce, ?_⟩
  rw [← hmem]
  refine hp ⟨j, hj⟩ (Finset.card_pos.2 ⟨i, ?_⟩)
  rw [hmem]
  exact Finset.mem_filter.2 ⟨Finset.mem_univ i, hi⟩

/-- Least squares for mutually exclusive columns. -/
noncomputable def groupOls : Ols := fun s X =>
  ⟨fun j => (∑ i, X i j * s i) / ∑ i, X i j ^ 2, fun j k => if j = k then
    (∑ i, X i j ^ 2 * (s i - X i j * ((∑ i, X i j * s i) / ∑ i, X i j ^ 2)) ^ 2) / (∑ i, X i j ^ 2) ^ 2 else 0⟩

theorem groupOls_spec (s : Fin n → ℝ) {X : Fin n → Fin d → ℝ} (hX : Exclusive X) (h0 : ∀ j, ∑ i, X i j ^ 2 ≠ 0) :
    LeastSquares s X (groupOls s X) := by
  have hsum : ∀ i j (p : Fin d → ℝ), X i j * ∑ k, X i k * p k = X i j ^ 2 * p j := fun i j p => by
    rw [Finset.mul_sum, Finset.sum_eq_single j]
    · ring
    · intro k _ hk
      rw [← mul_assoc, exclusive_mul hX hk.symm, zero_mul]
    · exact fun h => absurd (Finset.mem_univ j) h
  have hres : ∀ i j (p : Fin d → ℝ), X i j * (s i - ∑ k, X i k * p k) = X i j * (s i - X i j * p j) := fun i j p => by
    rw [mul_sub, hsum]
    ring
  have hg : ∀ j k, j ≠ k → ∑ i, X i j * X i k = 0 := fun j k h => Finset.sum_eq_zero fun i _ => exclusive_mul hX h
  have hS : ∀ j, ∑ i, X i j * X i j = ∑ i, X i j ^ 2 := fun j => Finset.sum_congr rfl fun i _ => (sq _).symm
  refine ⟨fun j => ?_, fun j k => ?_⟩
  · simp only [hres, mul_sub, Finset.sum_sub_distrib, ← mul_assoc, ← Finset.sum_mul]
    rw [hS]
    show _ - _ * ((∑ i, X i j * s i) / ∑ i, X i j ^ 2) = 0
    rw [mul_div_cancel₀ _ (h0 j), sub_self]
  · rw [Finset.sum_eq_single j]
    · rw [Finset.sum_eq_single k]
      · rw [hS, hS]
        show _ * (if j = k then _ else 0) * _ = _
        by_cases h : j = k
        · subst h
          rw [if_pos rfl]
          have e : ∀ i, X i j * X i j * (s i - ∑ l, X i l * (groupOls s X).params l) ^ 2 =
              X i j ^ 2 * (s i - X i j * ((∑ i, X i j * s i) / ∑ i, X i j ^ 2)) ^ 2 := fun i => by
            have := hres i j (groupOls s X).params
            calc _ = (X i j * (s i - ∑ l, X i l * (groupOls s X).params l)) ^ 2 := by ring
              _ = _ := by rw [this, mul_pow]; rfl
          simp only [e]
          have := h0 j
          generalize (∑ i, X i j ^ 2 * (s i - X i j * ((∑ i, X i j * s i) / ∑ i, X i j ^ 2)) ^ 2) = R
          field_simp
        · rw [if_neg h, mul_zero, zero_mul]
          exact (Finset.sum_eq_zero fun i _ => by rw [exclusive_mul hX h, zero_mul]).symm
      · intro c _ hc
        rw [hg c k hc, mul_zero]
      · exact fun h => absurd (Finset.mem_univ k) h
    · intro a _ ha
      simp only [hg j a ha.symm, zero_mul, Finset.sum_const_zero]
    · exact fun h => absurd (Finset.mem_univ j) h

/-- The hypothesis of `C62_categorical_groups` is met by least squares for every categorical variable. -/
example (psiB : Fin n → ℝ) (name : String) (v : Fin n → Option String) (cols : List (String × GCol n))
    (h : gateGroups (.frame [(name, .str v)]) = .ok cols) : LeastSquares psiB (colMatrix cols) (groupOls psiB (colMatrix cols)) := by
  obtain ⟨cols', hc, -, hnm, hval, -, hX⟩ := categorical_cols name v
  obtain rfl : cols' = cols := Except.ok.inj (hc.symm.trans h)
  refine groupOls_spec psiB hX fun j => ?_
  obtain ⟨s, e, hj⟩ := hval j
  obtain ⟨i, s', hi, e'⟩ := (hnm ("Group_" ++ s)).1 (List.mem_map.2 ⟨_, List.getElem_mem j.2, e⟩)
  have hs : s = s' := by
    have := congrArg String.toList e'
    rw [String.toList_append, String.toList_append] at this
    exact String.toList_inj.1 (List.append_cancel_left this)
  subst hs
  refine ne_of_gt (Finset.sum_pos' (fun _ _ => sq_nonneg _) ⟨i, Finset.mem_univ i, ?_⟩)
  rw [hj i, if_pos hi]
  norm_num

/-- **C62 (boolean groups).** The members of a group are the observations for which the indicator is true. -/
theorem C62_boolean_groups (cols : List (String × GCol n)) (j : Fin cols.length) (v : Fin n → Bool) (h : cols[j].2 = .bool v) :
    members (colMatrix cols) j = univ.filter fun i => v i = true := by
  unfold members colMatrix
  refine Finset.filter_congr fun k _ => ?_
  rw [h]
  show (if v k then (1 : ℝ) else 0) = 1 ↔ _
  split_ifs with h1
  · exact ⟨fun _ => h1, fun _ => rfl⟩
  · exact ⟨fun h2 => absurd h2 (by norm_num), fun h2 => absurd h2 h1⟩

/-- **C62 (GATEs add up to the ATE).** If every observation belongs to exactly one non-empty group, the group effects,
weighted with the shares of the groups, add up to the estimate of the (unweighted) average treatment effect. -/
theorem C62_gates_average_to_ate (ols : Ols) (norm : Bool) (y dd g0 g1 m : Fin n → ℝ) (hn : 0 < n) (g : GArg n)
    (cols : List (String × GCol n)) (b : Blp n cols.length)
    (h : irmGate ols 1 (irmAte norm y dd g0 g1 m (fun _ => 1) (fun _ => 1)).b g = .ok ⟨cols, b⟩)
    (hX : Exclusive (colMatrix cols)) (hd : Dummy (colMatrix cols)) (hcov : ∀ i, ∃ j, colMatrix cols i j = 1)
    (hpos : ∀ j, 0 < (members (colMatrix cols) j).card)
    (ho : LeastSquares (irmAte norm y dd g0 g1 m (fun _ => 1) (fun _ => 1)).b (colMatrix cols)
      (ols (irmAte norm y dd g0 g1 m (fun _ => 1) (fun _ => 1)).b (colMatrix cols))) :
    ∃ o, b.model = some o ∧ ∑ j, ((members (colMatrix cols) j).card / n : ℝ) * o.params j =
      (irmAte norm y dd g0 g1 m (fun _ => 1) (fun _ => 1)).coef none := by
  obtain ⟨o, hm, hp⟩ := C62_gate_mean ols _ g cols b h hX hd ho
  refine ⟨o, hm, ?_⟩
  set e := irmAte norm y dd g0 g1 m (fun _ => 1) (fun _ => 1) with he
  have ha : mean e.a = -1 := by
    have : e.a = fun _ => -1 := by
      funext i
      simp [he, irmAte, irmElems, mean_const hn]
    rw [this, mean_const hn]
  have hcoef : e.coef none = mean e.b := by
    simp only [PsiElems.coef, aggObs, ha]
    ring
  rw [hcoef]
  have h1 : ∀ j, ((members (colMatrix cols) j).card / n : ℝ) * o.params j = (∑ i ∈ members (colMatrix cols) j, e.b i) / n := by
    intro j
    have hne : ((members (colMatrix cols) j).card : ℝ) ≠ 0 := by exact_mod_cast (hpos j).ne'
    rw [(hp j (hpos j)).1]
    field_simp
  simp only [h1]
  rw [← Finset.sum_div]
  unfold mean
  congr 1
  have h2 : ∀ j, ∑ i ∈ members (colMatrix cols) j, e.b i = ∑ i, colMatrix cols i j * e.b i := fun j => (dummy_sum hd j _).symm
  simp only [h2]
  rw [Finset.sum_comm]
  apply Finset.sum_congr rfl
  intro i _
  obtain ⟨j, hj⟩ := hcov i
  rw [Finset.sum_eq_single j]
  · rw [hj, one_mul]
  · intro k _ hk
    have := exclusive_mul hX (i := i) hk
    rw [hj, mul_one] at this
    rw [this, zero_mul]
  · simp

/-- A constant basis. -/
def constBasis (n : ℕ) : Fin n → Fin 1 → ℝ := fun _ _ => 1

theorem exclusive_one (X : Fin n → Fin 1 → ℝ) : Exclusive X := by
  intro i j k hjk
  exact absurd (Subsingleton.elim j k) hjk

/-- **C62 (constant basis, IRM).** The best linear predictor of the ATE signal on a constant has the estimate and the
standard error of the model. -/
theorem C62_constant_irm (ols : Ols) (norm : Bool) (y dd g0 g1 m : Fin n → ℝ) (hn : 0 < n)
    (ho : LeastSquares (irmAte norm y dd g0 g1 m (fun _ => 1) (fun _ => 1)).b (constBasis n)
      (ols (irmAte norm y dd g0 g1 m (fun _ => 1) (fun _ => 1)).b (constBasis n))) :
    ∃ b o, irmCate ols 1 (irmAte norm y dd g0 g1 m (fun _ => 1) (fun _ => 1)).b ["const"] (constBasis n) false = .ok b ∧
      b.model = some o ∧ o.params 0 = ((irmAte norm y dd g0 g1 m (fun _ => 1) (fun _ => 1)).fit none).coef ∧
      o.bse 0 = ((irmAte norm y dd g0 g1 m (fun _ => 1) (fun _ => 1)).fit none).se := by
  set e := irmAte norm y dd g0 g1 m (fun _ => 1) (fun _ => 1) with he
  have hn' : (n : ℝ) ≠ 0 := by exact_mod_cast hn.ne'
  have hea : e.a = fun _ => -1 := by
    funext i
    simp [he, irmAte, irmElems, mean_const hn]
  have ha : mean e.a = -1 := by rw [hea, mean_const hn]
  have hcoef : e.coef none = mean e.b := by
    simp only [PsiElems.coef, aggObs, ha]
    ring
  refine ⟨_, ols e.b (constBasis n), by simp [irmCate, blpCreate]; rfl, rfl, ?_, ?_⟩
  · have := exclusive_params (exclusive_one _) ho 0
    simp only [constBasis, mul_one, one_mul, sum_const, card_univ, Fintype.card_fin, nsmul_eq_mul] at this
    show _ = e.coef none
    rw [hcoef]
    unfold mean
    rw [eq_div_iff hn', mul_comm]
    exact this
  · have hp : (ols e.b (constBasis n)).params 0 = mean e.b := by
      have := exclusive_params (exclusive_one _) ho 0
      simp only [constBasis, mul_one, one_mul, sum_const, card_univ, Fintype.card_fin, nsmul_eq_mul] at this
      unfold mean
      rw [eq_div_iff hn', mul_comm]
      exact this
    have hom := exclusive_omega (exclusive_one _) ho 0
    simp only [constBasis, mul_one, one_mul, sum_const, card_univ, Fintype.card_fin, nsmul_eq_mul] at hom
    unfold OlsRes.bse
    show _ = Real.sqrt (varEst (e.score (e.coef none)) e.a none).1
    congr 1
    unfold varEst varEstParts
    dsimp only
    rw [ha]
    have hsc : ∀ i, e.score (e.coef none) i = e.b i - mean e.b := by
      intro i
      rw [hcoef]
      simp only [PsiElems.score, hea]
      ring
    simp only [hsc]
    rw [hp] at hom
    show (ols e.b (constBasis n)).omega 0 0 = _
    unfold mean at hom ⊢
    rw [← hom]
    field_simp

/-- **C62 (what is not offered).** Best linear predictors exist for one repetition and, with several treatments, not for the
partially linear model; the answer is `NotImplementedError`. -/
theorem C62_not_implemented (ols : Ols) (psiB : Fin n → ℝ) (names : List String) (basis : Fin n → Fin d → ℝ) (isGate : Bool)
    (nTreat nRep : ℕ) (resid : (Fin n → ℝ) × (Fin n → ℝ)) :
    (nRep ≠ 1 → irmCate ols nRep psiB names basis isGate = .error .notImplemented) ∧
    (nRep ≠ 1 ∨ 2 ≤ nTreat → plrCate ols nTreat nRep resid names basis isGate = .error .notImplemented) := by
  refine ⟨fun h => if_pos h, fun h => ?_⟩
  unfold plrCate
  split_ifs with h1 h2
  · rfl
  · rfl
  · omega

/-- **C62 (constant basis, PLR).** For the partialling out score the best linear predictor on a constant basis has the
estimate and the standard error of the model. -/
theorem C62_constant_plr (ols : Ols) (y dd l m : Fin n → ℝ) (hn : 0 < n) (hv : ∑ i, (dd i - m i) * (dd i - m i) ≠ 0)
    (ho : LeastSquares (plrResid y dd l m).1 (fun i j => constBasis n i j * (plrResid y dd l m).2 i)
      (ols (plrResid y dd l m).1 (fun i j => constBasis n i j * (plrResid y dd l m).2 i))) :
    ∃ b o, plrCate ols 1 1 (plrResid y dd l m) ["const"] (constBasis n) false = .ok b ∧ b.model = some o ∧
      o.params 0 = ((plrPo y dd l m).fit none).coef ∧ o.bse 0 = ((plrPo y dd l m).fit none).se := by
  have hn' : (n : ℝ) ≠ 0 := by exact_mod_cast hn.ne'
  have hp := exclusive_params (exclusive_one _) ho 0
  have hom := exclusive_omega (exclusive_one _) ho 0
  simp only [constBasis, one_mul, plrResid] at hp hom
  have hma : mean (plrPo y dd l m).a = -((∑ i, (dd i - m i) * (dd i - m i)) / n) := by
    simp [plrPo, mean, Finset.sum_neg_distrib, neg_div]
  have hcoef : (plrPo y dd l m).coef none = (∑ i, (dd i - m i) * (y i - l i)) / ∑ i, (dd i - m i) * (dd i - m i) := by
    simp only [PsiElems.coef, aggObs, hma]
    simp only [plrPo, mean]
    field_simp
  have hpar : (ols (fun i => y i - l i) (fun i (_ : Fin 1) => dd i - m i)).params 0 = (plrPo y dd l m).coef none := by
    rw [hcoef, eq_div_iff hv, mul_comm]
    exact hp
  refine ⟨_, ols (plrResid y dd l m).1 (fun i j => constBasis n i j * (plrResid y dd l m).2 i),
    by simp [plrCate, blpCreate]; rfl, rfl, ?_, ?_⟩
  · simp only [constBasis, one_mul, plrResid]
    exact hpar
  · unfold OlsRes.bse
    show _ = Real.sqrt (varEst ((plrPo y dd l m).score ((plrPo y dd l m).coef none)) (plrPo y dd l m).a none).1
    congr 1
    simp only [constBasis, one_mul, plrResid]
    rw [hpar] at hom
    unfold varEst varEstParts
    dsimp only
    rw [hma]
    have hsc : ∀ i, (plrPo y dd l m).score ((plrPo y dd l m).coef none) i =
        (dd i - m i) * (y i - l i - (dd i - m i) * (plrPo y dd l m).coef none) := by
      intro i
      simp only [PsiElems.score]
      generalize (plrPo y dd l m).coef none = θ
      simp only [plrPo]
      ring
    simp only [hsc]
    rw [mean, ← hom]
    generalize (∑ i, (dd i - m i) * (dd i - m i)) = S at hv ⊢
    field_simp

/-- **C62 (constant basis, PLR with the IV-type score).** The estimate of the best linear predictor on a constant basis
is the estimate of the model. -/
theorem C62_constant_plr_iv (ols : Ols) (y dd m g : Fin n → ℝ) (hv : ∑ i, (dd i - m i) * (dd i - m i) ≠ 0)
    (hvd : ∑ i, (dd i - m i) * dd i ≠ 0) (hn : 0 < n)
    (ho : LeastSquares (plrResidIv y dd m g ((plrIv y dd m g).coef none)).1
        (fun i j => constBasis n i j * (plrResidIv y dd m g ((plrIv y dd m g).coef none)).2 i)
      (ols (plrResidIv y dd m g ((plrIv y dd m g).coef none)).1
        (fun i j => constBasis n i j * (plrResidIv y dd m g ((plrIv y dd m g).coef none)).2 i))) :
    ∃ b o, plrCate ols 1 1 (plrResidIv y dd m g ((plrIv y dd m g).coef none)) ["const"] (constBasis n) false = .ok b ∧
      b.model = some o ∧ o.params 0 = (plrIv y dd m g).coef none := by
  have hn' : (n : ℝ) ≠ 0 := by exact_mod_cast hn.ne'
  have hp := exclusive_params (exclusive_one _) ho 0
  refine ⟨_, _, by simp [plrCate, blpCreate]; rfl, rfl, ?_⟩
  simp only [constBasis, one_mul, plrResidIv] at hp ⊢
  have hma : mean (plrIv y dd m g).a = -((∑ i, (dd i - m i) * dd i) / n) := by
    simp [plrIv, mean, Finset.sum_neg_distrib, neg_div]
  have hcoef : (plrIv y dd m g).coef none * (∑ i, (dd i - m i) * dd i) = ∑ i, (dd i - m i) * (y i - g i) := by
    simp only [PsiElems.coef, aggObs, hma]
    simp only [plrIv, mean]
    generalize (∑ i, (dd i - m i) * dd i) = S at hvd ⊢
    field_simp
  generalize hθ : (plrIv y dd m g).coef none = θ at *
  have hsum : ∑ i, (dd i - m i) * (y i - θ * m i - g i) = θ * ∑ i, (dd i - m i) * (dd i - m i) := by
    have : ∀ i, (dd i - m i) * (y i - θ * m i - g i) = (dd i - m i) * (y i - g i) - θ * ((dd i - m i) * m i) := by
      intro i; ring
    simp only [this, sum_sub_distrib, ← mul_sum]
    rw [← hcoef, ← mul_sub, ← sum_sub_distrib]
    congr 1
    apply Finset.sum_congr rfl
    intro i _
    ring
  rw [hsum] at hp
  have := mul_right_cancel₀ hv (a := (ols (fun i => y i - θ * m i - g i) fun i (_ : Fin 1) => dd i - m i).params 0) (c := θ)
    (by rw [mul_comm]; exact hp)
  exact this

/-- Non-vacuity of C62: two observations, one per group; the least squares fit reproduces the signal. -/
example : LeastSquares (n := 2) (d := 2) ![3, 5] (colMatrix [("a", GCol.bool ![true, false]), ("b", GCol.bool ![false, true])])
    ⟨![3, 5], fun _ _ => 0⟩ ∧
    Exclusive (colMatrix [("a", GCol.bool ![true, false]), ("b", GCol.bool ![false, true])]) ∧
    Dummy (colMatrix [("a", GCol.bool ![true, false]), ("b", GCol.bool ![false, true])]) := by
  refine ⟨⟨?_, ?_⟩, ?_, ?_⟩
  · intro j
    fin_cases j <;> simp [Fin.sum_univ_two, colMatrix, GCol.values]
  · intro j k
    fin_cases j <;> fin_cases k <;> simp [Fin.sum_univ_two, colMatrix, GCol.values]
  · intro i j k hjk
    fin_cases i <;> fin_cases j <;> fin_cases k <;> simp_all [colMatrix, GCol.values]
  · intro i j
    fin_cases i <;> fin_cases j <;> simp [colMatrix, GCol.values]

end DML
