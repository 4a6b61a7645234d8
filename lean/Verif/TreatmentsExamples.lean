import Verif.TreatmentsCreated
import Verif.JointPlrExamples

/-!
# One treatment of several: an example

Two treatments, each a covariate of the other (the default).
-/

namespace DML

/-- The data with both treatments, each a covariate of the other. -/
noncomputable def bothData (n : ℕ) (ω : ℕ → Fin 3 → Bool) : DataState n :=
  { twoData n ω with
    useOther := true
    xv := [(twoFrame n ω).col "x", (twoFrame n ω).col "d2"] }

/-- The data with the first treatment alone and the second as covariate. -/
noncomputable def firstData (n : ℕ) (ω : ℕ → Fin 3 → Bool) : DataState n :=
  { twoData n ω with
    d := ["d1"]
    x := ["x", "d2"]
    useOther := true
    xv := [(twoFrame n ω).col "x", (twoFrame n ω).col "d2"]
    binTreats := [("d1", isBinaryCol ((twoFrame n ω).col "d1"))] }

theorem both_fresh (n : ℕ) (ω : ℕ → Fin 3 → Bool) : FreshData (twoFrame n ω) (bothData n ω) := by
  have hf : ∀ c, finiteCol ((twoFrame n ω).col c) := fun c i => ⟨_, rfl⟩
  have hc : (twoFrame n ω).cols = ["y", "d1", "d2", "x"] := rfl
  refine ⟨by rw [hc]; decide, none, ⟨.str "y", .list ["d1", "d2"], .str "x", .none, .none, .none, .bool true, .bool true⟩, ?_⟩
  unfold dataInit
  have e1 : clusterArg (twoFrame n ω) none = .ok none := rfl
  have e2 : colStr (twoFrame n ω) (.str "y") = .ok "y" := by
    unfold colStr
    dsimp only
    rw [hc, if_pos (by decide)]
  have e3 : colList (twoFrame n ω) (.list ["d1", "d2"]) = .ok ["d1", "d2"] := by
    unfold colList
    dsimp only
    rw [hc, if_neg (by decide), if_pos (by decide)]
  have e4 : ∀ S, xArg (twoFrame n ω) S (.str "x") = .ok ["x"] := fun S => by
    unfold xArg colList
    dsimp only
    rw [hc, if_pos (by decide)]
  simp only [e1, e2, e3, e4, zArg, optArg, Bind.bind, Except.bind, checkBool, forceArg]
  rw [if_neg (by simp), if_neg (by simp [disjointBase, disj, disjointTS]), if_neg (by simp [hf]), if_neg (by simp [hf])]
  simp only [setYZTS, hf, not_true_eq_false, if_false, Option.mem_def, reduceCtorEq, implies_true, setXDFirst]
  rw [setXD, if_neg (by simp), if_neg (by simp [hf]), if_neg (by simp [hf]), if_neg (by simp)]
  rfl

theorem first_fresh (n : ℕ) (ω : ℕ → Fin 3 → Bool) : FreshData (twoFrame n ω) (firstData n ω) := by
  have hf : ∀ c, finiteCol ((twoFrame n ω).col c) := fun c i => ⟨_, rfl⟩
  have hc : (twoFrame n ω).cols = ["y", "d1", "d2", "x"] := rfl
  refine ⟨by rw [hc]; decide, none, ⟨.str "y", .str "d1", .list ["x", "d2"], .none, .none, .none, .bool true, .bool true⟩, ?_⟩
  unfold dataInit
  have e1 : clusterArg (twoFrame n ω) none = .ok none := rfl
  have e2 : colStr (twoFrame n ω) (.str "y") = .ok "y" := by
    unfold colStr
    dsimp only
    rw [hc, if_pos (by decide)]
  have e3 : colList (twoFrame n ω) (.str "d1") = .ok ["d1"] := by
    unfold colList
    dsimp only
    rw [hc, if_pos (by decide)]
  have e4 : ∀ S, xArg (twoFrame n ω) S (.list ["x", "d2"]) = .ok ["x", "d2"] := fun S => by
    unfold xArg colList
    dsimp only
    rw [hc, if_neg (by decide), if_pos (by decide)]
  simp only [e1, e2, e3, e4, zArg, optArg, Bind.bind, Except.bind, checkBool, forceArg]
  rw [if_neg (by simp), if_neg (by simp [disjointBase, disj, disjointTS]), if_neg (by simp [hf]), if_neg (by simp [hf])]
  simp only [setYZTS, hf, not_true_eq_false, if_false, Option.mem_def, reduceCtorEq, implies_true, setXDFirst]
  rw [setXD, if_neg (by simp), if_neg (by simp [hf]), if_neg (by simp [hf]), if_neg (by simp)]
  rfl

/-- The hypotheses of `C85_created` are met, whatever the sample. -/
example (E : Ext) {n : ℕ} (hn : 2 ≤ n) (ω : ℕ → Fin 3 → Bool) : ∃ s s' : LinState n ℕ,
    (bothData n ω).d[0]? = some "d1" ∧ (bothData n ω).OneOf (firstData n ω) "d1" ∧
    initModel (plrSpec (plrMean n)) (bothData n ω) 0 (.int (2 : ℕ)) (.int (3 : ℕ)) (.bool true) (plainDraws n) = .ok s ∧
    initModel (plrSpec (plrMean n)) (firstData n ω) 0 (.int (2 : ℕ)) (.int (3 : ℕ)) (.bool true) (plainDraws n) = .ok s' ∧
    (fit (twoFrame n ω) (plrSpec (plrMean n)) s {}).2 = .ok () ∧ (fit (twoFrame n ω) (plrSpec (plrMean n)) s' {}).2 = .ok () := by
  obtain ⟨s, h⟩ := created_exists (plrSpec (plrMean n)) rfl (bothData n ω) 0 (K := 2) (r := 3) le_rfl (by norm_num) (fun _ => hn) (plainDraws n)
  obtain ⟨s', h'⟩ := created_exists (plrSpec (plrMean n)) rfl (firstData n ω) 0 (K := 2) (r := 3) le_rfl (by norm_num) (fun _ => hn) (plainDraws n)
  have hw : ∀ K : ℤ, (PyVal.int (2 : ℕ)).asInt = some K → ∀ r i, ((plainDraws n).assign r i : ℤ) < K := fun K hK q i => by
    obtain rfl : ((2 : ℕ) : ℤ) = K := Option.some.inj hK
    exact two_pos
  have ha : ∀ ds r, ValidArgsFor (plrSpec (plrMean n)) ds r {} := fun ds r => ⟨.inl rfl, ⟨true, rfl⟩, ⟨false, rfl⟩, .inl rfl⟩
  refine ⟨s, s', rfl, ⟨rfl, rfl, rfl, rfl, rfl⟩, h, h', ?_, ?_⟩
  · refine C63_plr_many (E := E) rfl (by omega) (both_fresh n ω) ⟨0, _, _, _, _, _, [], h, hw, trivial, rfl⟩
      (created_kfold rfl rfl le_rfl hn h).1 (fun _ _ _ _ h => by cases h) (ha _ _) fun tv ht hz => ?_
    have ht' : tv ∈ List.ofFn twoNames := ht
    obtain ⟨i, rfl⟩ := List.mem_ofFn.1 ht'
    exact absurd hz (two_not_binary (by omega) ω i)
  · refine C63_plr_many (E := E) rfl (by omega) (first_fresh n ω) ⟨0, _, _, _, _, _, [], h', hw, trivial, rfl⟩
      (created_kfold rfl rfl le_rfl hn h').1 (fun _ _ _ _ h => by cases h) (ha _ _) fun tv ht hz => ?_
    obtain rfl : tv = twoNames 0 := List.mem_singleton.1 ht
    exact absurd hz (two_not_binary (by omega) ω 0)

end DML
