import Verif.Weights
import Verif.Scores

/-!
# C53: validation of weights
-/

namespace DML

/-- An array of shape `s` whose entries are non-negative with positive total. -/
structure GoodArray (a : NdArr) (s : List ℕ) : Prop where
  shape : a.shape = s
  nonneg : ∀ x ∈ a.entries, 0 ≤ x
  total : 0 < a.entries.sum

/-- The weight arguments the documentation admits. -/
inductive GoodWeights (nObs nRep : ℕ) : WArg → WScore → Prop
  | default (s : WScore) : GoodWeights nObs nRep .none s
  | ate (a : NdArr) : GoodArray a [nObs] → GoodWeights nObs nRep (.arr a) .ate
  | atte (a : NdArr) : GoodArray a [nObs] → (∀ x ∈ a.entries, x = 0 ∨ x = 1) → GoodWeights nObs nRep (.arr a) .atte
  | dict (kv : List (String × WVal)) (a b : NdArr) :
      (kv.Perm [("weights", .arr a), ("weights_bar", .arr b)]) → GoodArray a [nObs] → GoodArray b [nObs, nRep] →
      GoodWeights nObs nRep (.dict kv) .ate

/-- A dictionary has no key twice. -/
def WArg.Dict : WArg → Prop
  | .dict kv => (kv.map Prod.fst).Nodup
  | _ => True

theorem total_pos_iff {l : List ℝ} (h : ∀ x ∈ l, 0 ≤ x) : 0 < l.sum ↔ l.sum ≠ 0 := by
  have : 0 ≤ l.sum := List.sum_nonneg h
  constructor
  · exact fun h => h.ne'
  · exact fun h => lt_of_le_of_ne this h.symm

theorem checkWeightArray_ok_iff (a : NdArr) (nObs : ℕ) : checkWeightArray a nObs = .ok () ↔ GoodArray a [nObs] := by
  unfold checkWeightArray
  have hs : (¬ (a.shape.length ≠ 1 ∨ a.shape.head? ≠ some nObs)) ↔ a.shape = [nObs] := by
    rcases a.shape with _ | ⟨x, _ | ⟨y, l⟩⟩ <;> simp
  by_cases h1 : a.shape.length ≠ 1 ∨ a.shape.head? ≠ some nObs
  · rw [if_pos h1]
    simp only [reduceCtorEq, false_iff]
    intro h
    exact hs.2 h.shape h1
  rw [if_neg h1]
  by_cases h2 : ∀ x ∈ a.entries, 0 ≤ x
  · rw [if_neg (not_not.2 h2)]
    by_cases h3 : a.entries.sum = 0
    · rw [if_pos h3]
      simp only [reduceCtorEq, false_iff]
      intro h
      exact h.total.ne' h3
    · rw [if_neg h3]
      simp only [true_iff]
      exact ⟨hs.1 h1, h2, (total_pos_iff h2).2 h3⟩
  · rw [if_pos h2]
    simp only [reduceCtorEq, false_iff]
    intro h
    exact h2 h.nonneg

theorem checkWeightAtte_ok_iff (a : NdArr) : checkWeightAtte a = .ok () ↔ ∀ x ∈ a.entries, x = 0 ∨ x = 1 := by
  unfold checkWeightAtte
  have : ∀ x : ℝ, x ^ 2 - x = 0 ↔ x = 0 ∨ x = 1 := by
    intro x
    rw [show x ^ 2 - x = x * (x - 1) by ring, mul_eq_zero, sub_eq_zero]
  simp only [this]
  split_ifs with h
  · simpa using h
  · simpa using h

theorem signs_ok_iff (a b : NdArr) : checkWeightDict.signs a b = .ok () ↔
    (∀ x ∈ a.entries, 0 ≤ x) ∧ (∀ x ∈ b.entries, 0 ≤ x) ∧ 0 < a.entries.sum ∧ 0 < b.entries.sum := by
  unfold checkWeightDict.signs
  by_cases h1 : (∀ x ∈ a.entries, 0 ≤ x)
  · by_cases h2 : (∀ x ∈ b.entries, 0 ≤ x)
    · rw [if_neg (by push Not; exact ⟨h1, h2⟩)]
      rw [total_pos_iff h1, total_pos_iff h2]
      split_ifs with h3
      · simp only [false_iff]; tauto
      · simp only [true_iff]; tauto
    · rw [if_pos (Or.inr h2)]
      simp only [reduceCtorEq, false_iff]; tauto
  · rw [if_pos (Or.inl h1)]
    simp only [reduceCtorEq, false_iff]; tauto

/-- The two-key dictionaries, up to order. -/
theorem dict_perm {kv : List (String × WVal)} (hnd : (kv.map Prod.fst).Nodup)
    (h : ∀ k ∈ kv.map Prod.fst, k = "weights" ∨ k = "weights_bar") {v v' : WVal}
    (hv : wLookup kv "weights" = .ok v) (hv' : wLookup kv "weights_bar" = .ok v') :
    kv.Perm [("weights", v), ("weights_bar", v')] := by
  have mem : ∀ k w, wLookup kv k = .ok w → (k, w) ∈ kv := by
    intro k w hw
    unfold wLookup at hw
    cases hf : kv.find? fun p => p.1 == k with
    | none => rw [hf] at hw; cases hw
    | some p =>
      rw [hf] at hw
      cases hw
      have h1 := List.find?_some hf
      have h2 := List.mem_of_find?_eq_some hf
      rw [← eq_of_beq h1]
      exact h2
  have hkv : kv.Nodup := List.Nodup.of_map _ hnd
  refine (List.perm_ext_iff_of_nodup hkv (by simp)).2 ?_
  intro p
  constructor
  · intro hp
    have inj := List.inj_on_of_nodup_map hnd
    rcases h p.1 (List.mem_map_of_mem hp) with hk | hk
    · have := inj hp (mem _ _ hv) hk
      rw [this]; simp
    · have := inj hp (mem _ _ hv') hk
      rw [this]; simp
  · intro hp
    simp only [List.mem_cons, List.not_mem_nil, or_false] at hp
    rcases hp with rfl | rfl
    · exact mem _ _ hv
    · exact mem _ _ hv'

theorem wLookup_of_perm {kv : List (String × WVal)} {v v' : WVal}
    (h : kv.Perm [("weights", v), ("weights_bar", v')]) :
    wLookup kv "weights" = .ok v ∧ wLookup kv "weights_bar" = .ok v' := by
  have hl : kv.length = 2 := h.length_eq
  match kv, hl with
  | [p, q], _ =>
    have hp : p ∈ [("weights", v), ("weights_bar", v')] := h.mem_iff.1 (by simp)
    have hq : q ∈ [("weights", v), ("weights_bar", v')] := h.mem_iff.1 (by simp)
    have h1 : ("weights", v) ∈ [p, q] := h.mem_iff.2 (by simp)
    have h2 : ("weights_bar", v') ∈ [p, q] := h.mem_iff.2 (by simp)
    simp only [List.mem_cons, List.not_mem_nil, or_false] at h1 h2
    rcases h1 with h1 | h1 <;> rcases h2 with h2 | h2
    · rw [← h1] at h2; simp at h2
    · subst h1 h2; simp [wLookup]
    · subst h1 h2; simp [wLookup]
    · rw [← h1] at h2; simp at h2

theorem checkWeightDict_ok_iff (kv : List (String × WVal)) (hnd : (kv.map Prod.fst).Nodup) (nObs nRep : ℕ) :
    checkWeightDict kv nObs nRep = .ok () ↔ ∃ a b, kv.Perm [("weights", .arr a), ("weights_bar", .arr b)] ∧
      GoodArray a [nObs] ∧ GoodArray b [nObs, nRep] := by
  constructor
  · intro h
    unfold checkWeightDict at h
    by_cases hk : ((∀ k ∈ kv.map Prod.fst, k = "weights" ∨ k = "weights_bar") ∧ "weights" ∈ kv.map Prod.fst ∧
      "weights_bar" ∈ kv.map Prod.fst)
    · rw [if_neg (not_not.2 hk)] at h
      obtain ⟨v, hv, h'⟩ := bind_ok h
      clear h
      obtain ⟨a, ha, h⟩ := bind_ok h'
      clear h'
      obtain ⟨v', hv', h'⟩ := bind_ok h
      clear h
      obtain ⟨b, hb, h⟩ := bind_ok h'
      clear h'
      have arr : ∀ (v : WVal) (s : List ℕ) (a : NdArr), wShape v s = .ok a → v = .arr a ∧ a.shape = s := by
        intro v s a hv
        cases v with
        | other => cases hv
        | arr a' =>
          unfold wShape at hv
          dsimp only at hv
          split_ifs at hv with hs
          cases hv
          exact ⟨rfl, hs⟩
      obtain ⟨rfl, hsa⟩ := arr _ _ _ ha
      obtain ⟨rfl, hsb⟩ := arr _ _ _ hb
      obtain ⟨h1, h2, h3, h4⟩ := (signs_ok_iff a b).1 h
      exact ⟨a, b, dict_perm hnd hk.1 hv hv', ⟨hsa, h1, h3⟩, ⟨hsb, h2, h4⟩⟩
    · rw [if_pos hk] at h
      cases h
  · rintro ⟨a, b, hp, ha, hb⟩
    obtain ⟨h1, h2⟩ := wLookup_of_perm hp
    have hkeys : (kv.map Prod.fst).Perm ["weights", "weights_bar"] := by simpa using hp.map Prod.fst
    unfold checkWeightDict
    rw [if_neg (not_not.2 ⟨fun k hk => by simpa using hkeys.mem_iff.1 hk, hkeys.mem_iff.2 (by simp),
      hkeys.mem_iff.2 (by simp)⟩), h1, h2]
    show (do let a ← wShape (.arr a) [nObs]; let b ← wShape (.arr b) [nObs, nRep]; checkWeightDict.signs a b) = _
    unfold wShape
    dsimp only
    rw [if_pos ha.shape, if_pos hb.shape]
    exact (signs_ok_iff a b).2 ⟨ha.nonneg, hb.nonneg, ha.total, hb.total⟩

/-- **C53.** `_check_weights` accepts exactly: no weights; for the ATE (and APO) non-negative arrays of length `n_obs`
with positive total, or dictionaries with exactly the keys `weights` and `weights_bar` and arrays of shapes `(n_obs,)`
and `(n_obs, n_rep)`, non-negative with positive totals; for the ATTE arrays of that kind with entries 0 and 1. -/
theorem C53_accepted_iff (w : WArg) (hw : w.Dict) (score : WScore) (nObs nRep : ℕ) :
    checkWeights w score nObs nRep = .ok () ↔ GoodWeights nObs nRep w score := by
  constructor
  · intro h
    match w, score with
    | .none, s => exact .default s
    | .other, _ => cases h
    | .arr a, .ate => exact .ate a ((checkWeightArray_ok_iff a nObs).1 h)
    | .arr a, .atte =>
      unfold checkWeights at h
      obtain ⟨u, hu, h⟩ := bind_ok h
      exact .atte a ((checkWeightArray_ok_iff a nObs).1 hu) ((checkWeightAtte_ok_iff a).1 h)
    | .dict _, .atte => cases h
    | .dict kv, .ate =>
      obtain ⟨a, b, h1, h2, h3⟩ := (checkWeightDict_ok_iff kv hw nObs nRep).1 h
      exact .dict kv a b h1 h2 h3
  · intro h
    cases h with
    | default s => rfl
    | ate a ha => exact (checkWeightArray_ok_iff a nObs).2 ha
    | atte a ha hb =>
      unfold checkWeights
      dsimp only
      rw [(checkWeightArray_ok_iff a nObs).2 ha]
      exact (checkWeightAtte_ok_iff a).2 hb
    | dict kv a b hp ha hb => exact (checkWeightDict_ok_iff kv hw nObs nRep).2 ⟨a, b, hp, ha, hb⟩

/-- **C53 (errors).** Everything else is rejected with a `TypeError`, `ValueError` or (dictionary values without a
shape) `AttributeError`, and the model never stores unchecked weights. -/
theorem C53_rejected (w : WArg) (hw : w.Dict) (score : WScore) (nObs nRep : ℕ) (hn : ¬ GoodWeights nObs nRep w score) :
    ∃ e, initWeights w score nObs nRep = .error e := by
  unfold initWeights
  cases h : checkWeights w score nObs nRep with
  | error e => exact ⟨e, rfl⟩
  | ok u => exact absurd ((C53_accepted_iff w hw score nObs nRep).1 h) hn

/-- **C53 (use).** For accepted arguments the constructor succeeds; the weights used for observation `i` in
repetition `k` are non-negative, are 1 without an argument, the entries of the array given (for `weights` and for
`weights_bar`), or the entries of both arrays of the dictionary. -/
theorem C53_used (w : WArg) (score : WScore) (nObs nRep : ℕ) (hg : GoodWeights nObs nRep w score) (hw : w.Dict) :
    ∃ s, initWeights w score nObs nRep = .ok s ∧ ∀ (i : Fin nObs) (k : Fin nRep),
      0 ≤ (s.get nObs nRep i k).1 ∧ 0 ≤ (s.get nObs nRep i k).2 ∧
      (w = .none → s.get nObs nRep i k = (1, 1)) ∧
      (∀ a, w = .arr a → s.get nObs nRep i k = (a.entries.getD i 0, a.entries.getD i 0)) ∧
      (∀ kv a b, w = .dict kv → kv.Perm [("weights", .arr a), ("weights_bar", .arr b)] →
        s.get nObs nRep i k = (a.entries.getD i 0, b.entries.getD (i * nRep + k) 0)) := by
  have hc := (C53_accepted_iff w hw score nObs nRep).2 hg
  have nn : ∀ (l : List ℝ) (j : ℕ), (∀ x ∈ l, 0 ≤ x) → 0 ≤ l.getD j 0 := by
    intro l j hl
    rw [List.getD]
    cases hj : l[j]? with
    | none => simp
    | some x => simpa using hl x (List.mem_of_getElem? hj)
  unfold initWeights
  rw [hc]
  cases hg with
  | default s =>
    refine ⟨_, rfl, fun i k => ?_⟩
    simp [StoredWeights.get]
  | ate a ha =>
    refine ⟨_, rfl, fun i k => ⟨nn _ _ ha.nonneg, nn _ _ ha.nonneg, (by intro h; cases h), ?_, (by intro _ _ _ h; cases h)⟩⟩
    intro a' h
    cases h
    rfl
  | atte a ha hb =>
    refine ⟨_, rfl, fun i k => ⟨nn _ _ ha.nonneg, nn _ _ ha.nonneg, (by intro h; cases h), ?_, (by intro _ _ _ h; cases h)⟩⟩
    intro a' h
    cases h
    rfl
  | dict kv a b hp ha hb =>
    obtain ⟨h1, h2⟩ := wLookup_of_perm hp
    refine ⟨⟨a, some b⟩, ?_, fun i k => ⟨nn _ _ ha.nonneg, nn _ _ hb.nonneg, (by intro h; cases h), (by intro _ h; cases h), ?_⟩⟩
    · show initWeights.store nObs (.dict kv) = _
      have e1 : wArray kv "weights" = .ok a := by unfold wArray; rw [h1]; rfl
      have e2 : wArray kv "weights_bar" = .ok b := by unfold wArray; rw [h2]; rfl
      unfold initWeights.store
      dsimp only
      rw [e1, e2]
      rfl
    · intro kv' a' b' h hp'
      cases h
      obtain ⟨h1', h2'⟩ := wLookup_of_perm hp'
      rw [h1] at h1'
      rw [h2] at h2'
      cases h1'
      cases h2'
      rfl

/-- **C53 (normalisation for the ATTE).** The weights the ATTE score uses average to one. -/
theorem C53_atte_normalised {n : ℕ} (w d m : Fin n → ℝ) (h : mean (fun i => w i * d i) ≠ 0) :
    mean (atteWeights w d m).1 = 1 := by
  have : (atteWeights w d m).1 = fun i => w i * d i / mean fun i => w i * d i := by
    unfold atteWeights; rfl
  rw [this, mean_div_right, div_self h]

/-- Non-vacuity of C53. -/
example : GoodWeights 2 1 (.dict [("weights_bar", .arr ⟨[2, 1], [1, 0]⟩), ("weights", .arr ⟨[2], [1, 2]⟩)]) .ate := by
  refine .dict _ ⟨[2], [1, 2]⟩ ⟨[2, 1], [1, 0]⟩ (List.Perm.swap _ _ _) ⟨rfl, ?_, ?_⟩ ⟨rfl, ?_, ?_⟩ <;> norm_num

example : GoodWeights 3 1 (.arr ⟨[3], [1, 0, 1]⟩) .atte :=
  .atte _ ⟨rfl, by norm_num, by norm_num⟩ (by norm_num)

example : ¬ GoodWeights 2 1 (.arr ⟨[2], [1, -1]⟩) .ate := by
  intro h
  cases h with
  | ate a ha => exact absurd (ha.nonneg (-1) (by simp)) (by norm_num)

end DML
