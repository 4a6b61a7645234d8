import Verif.FrameworkInitProps

/-!
# Further laws of result objects (C03, C05) and programs with several objects (C06)
-/

namespace DML

variable {n r : ℕ}

/-! ## C03: cancellation, and numbers on either side -/

/-- **C03 (cancellation).** `(A + B) - B` is defined and reports exactly the estimates, standard errors and scores of
`A`, provided these are consistent (the standard errors are those of the influence function). -/
theorem C03_cancel (A B : FW n r) (v : ℝ) (hA : A.Plain v) (hB : B.Plain v) (hlen : A.blocks.length = B.blocks.length)
    (hcons : ∀ b ∈ A.blocks, b.Consistent) :
    ∃ S R, FW.add A B = .ok S ∧ FW.sub S B = .ok R ∧ R.blocks = A.blocks := by
  obtain ⟨S, eS, pS, lS⟩ := (FW.bin_plain (op := Block.add) (fun _ _ => rfl) hA hB).1 hlen
  refine ⟨S, _, eS, pS.bin_eq_ok hB (by omega), ?_⟩
  obtain ⟨hbl, -⟩ := FW.bin_ok eS
  simp only [hbl]
  apply List.ext_getElem (by simp [hlen])
  intro i h1 h2
  simp only [List.getElem_zipWith]
  have hc := hcons _ (List.getElem_mem h2)
  have hs := Block.sub_consistent (A.blocks[i].add (B.blocks[i]'(by omega))) (B.blocks[i]'(by omega))
  unfold Block.Consistent at hc hs
  rw [hs]
  conv_rhs => rw [hc]
  simp only [Block.sub, Block.add, add_sub_cancel_right]

/-- The hypotheses of `C03_cancel` are met by two fitted models. -/
example : ∃ S R, FW.add (exampleEnv true) (exampleEnv false) = .ok S ∧ FW.sub S (exampleEnv false) = .ok R ∧
    R.blocks = (exampleEnv true).blocks := by
  have hpl : ∀ i, (exampleEnv i).Plain 2 := by
    intro i
    refine ⟨⟨?_, ?_⟩, rfl, ?_, ?_⟩
    · intro s hs; simp [exampleEnv] at hs
    · intro hs; simp [exampleEnv] at hs
    · intro bs hb; simp [exampleEnv] at hb
    · intro b hb; simp only [exampleEnv, List.mem_singleton] at hb; subst hb; rfl
  refine C03_cancel _ _ 2 (hpl true) (hpl false) rfl ?_
  intro b hb
  simp only [exampleEnv, List.mem_singleton] at hb
  subst hb
  rfl

/-- **C03 (numbers on either side).** `c * A` and `A * c` give the same result or raise the same exception. -/
theorem C03_scalar_sides (A : Framework) (c : Operand) : A.rmul c = A.mul c := rfl

/-! ## C05: exact acceptance, nesting, derived quantities -/

/-- An object that passes the checks of its own constructor (as every existing object does). -/
def FW.Valid (A : FW n r) : Prop := A.construct = .ok A

theorem FW.valid_iff {A : FW n r} : A.Valid ↔ A.shapesOk ∧ (A.sens = none → A.bench = none) ∧
    (∀ bs ∈ A.bench, ∀ b ∈ bs, b.ok) ∧ ∀ ns ∈ A.names, ns.length = A.blocks.length := by
  constructor
  · intro h
    obtain ⟨h1, h2, h3, h4⟩ := FW.construct_ok h
    refine ⟨h2, fun hs => ?_, h3, h4⟩
    rw [h1]; simp [FW.normBench, hs]
  · rintro ⟨h1, h2, h3, h4⟩
    have hn : A.normBench = A := by
      unfold FW.normBench
      cases hs : A.sens with
      | none => simp only [Option.isSome_none]; rw [if_neg (by simp)]; have := h2 hs; cases A; simp_all
      | some _ => cases A; simp_all
    have := FW.construct_eq_ok (A := A) (by rw [hn]; exact h1) (by rw [hn]; exact h3) h4
    rw [hn] at this
    exact this

/-- The arguments `concat` hands to the constructor. -/
noncomputable def concatArgs (As : List (FW n r)) : FW n r :=
  open Classical in
  { blocks := (As.map FW.blocks).flatten
    cluster := none
    sens := if ∀ B ∈ As, B.sens.isSome then some (As.map fun B => B.sens.getD []).flatten else none
    bench := if ∀ B ∈ As, B.sens.isSome ∧ B.bench.isSome then some (As.map fun B => B.bench.getD []).flatten else none
    names := none }

theorem concat_eq {As : List (FW n r)} (h : As ≠ []) : FW.concat As =
    open Classical in
    if ∃ B ∈ As, ¬ B.shapesOk then .error .valueError
    else if ∃ B ∈ As, ∃ C ∈ As, B.cluster.isSome ≠ C.cluster.isSome then .error .valueError
    else if ∃ B ∈ As, B.cluster.isSome then .error .notImplemented
    else (concatArgs As).construct := by
  cases As with
  | nil => exact absurd rfl h
  | cons A As =>
    unfold FW.concat
    dsimp only
    have hiff : (∃ B ∈ As, ¬ A.compatible B false) ↔
        ∃ B ∈ A :: As, ∃ C ∈ A :: As, B.cluster.isSome ≠ C.cluster.isSome := by
      have hcomp : ∀ B, ¬ A.compatible B false ↔ A.cluster.isSome ≠ B.cluster.isSome := by
        intro B; simp [FW.compatible]
      simp only [hcomp]
      constructor
      · rintro ⟨B, hB, h⟩
        exact ⟨A, by simp, B, by simp [hB], h⟩
      · rintro ⟨B, hB, C, hC, h⟩
        by_contra hne
        push Not at hne
        have h1 : ∀ X ∈ A :: As, A.cluster.isSome = X.cluster.isSome := by
          intro X hX
          rcases List.mem_cons.1 hX with rfl | hX
          · rfl
          · exact hne X hX
        exact h ((h1 B hB).symm.trans (h1 C hC))
    simp only [hiff]
    rfl

theorem concatArgs_shapes {As : List (FW n r)} (h : ∀ A ∈ As, A.shapesOk) : (concatArgs As).normBench.shapesOk := by
  apply FW.shapesOk_normBench
  refine ⟨?_, ?_⟩
  · intro s hs
    simp only [concatArgs, Option.mem_def] at hs ⊢
    split_ifs at hs with hall
    cases hs
    simp only [List.length_flatten, List.map_map]
    congr 1
    apply List.map_congr_left
    intro A hA
    obtain ⟨es, he⟩ := Option.isSome_iff_exists.1 (hall A hA)
    simp only [Function.comp, he, Option.getD_some]
    exact (h A hA).1 es (by simp [he])
  · intro _ s hs
    simp only [concatArgs, Option.mem_def] at hs ⊢
    split_ifs at hs with hall
    cases hs
    simp only [List.length_flatten, List.map_map]
    congr 1
    apply List.map_congr_left
    intro A hA
    obtain ⟨es, he⟩ := Option.isSome_iff_exists.1 (hall A hA).2
    simp only [Function.comp, he, Option.getD_some]
    exact (h A hA).2 (hall A hA).1 es (by simp [he])

theorem concat_valid {As : List (FW n r)} (h0 : As ≠ []) (hv : ∀ A ∈ As, A.Valid) (hc : ∀ A ∈ As, A.cluster = none) :
    FW.concat As = .ok (concatArgs As).normBench := by
  have hsh : ∀ A ∈ As, A.shapesOk := fun A hA => (FW.valid_iff.1 (hv A hA)).1
  rw [concat_eq h0, if_neg, if_neg, if_neg, FW.construct_eq_ok (concatArgs_shapes hsh)]
  · intro bs hbs b hb
    simp only [FW.normBench, concatArgs, Option.mem_def] at hbs
    by_cases h2 : ∀ B ∈ As, B.sens.isSome = true ∧ B.bench.isSome = true
    swap
    · rw [if_neg h2] at hbs
      split_ifs at hbs
    rw [if_pos h2] at hbs
    split_ifs at hbs
    all_goals
    cases hbs
    obtain ⟨l, hl, hbl⟩ := List.mem_flatten.1 hb
    obtain ⟨A, hA, rfl⟩ := List.mem_map.1 hl
    obtain ⟨t, ht⟩ := Option.isSome_iff_exists.1 (h2 A hA).2
    rw [ht] at hbl
    exact (FW.valid_iff.1 (hv A hA)).2.2.1 t (by simp [ht]) b hbl
  · intro ns hns; simp [concatArgs] at hns
  · push Not
    intro A hA
    simp [hc A hA]
  · push Not
    intro A hA B hB
    rw [hc A hA, hc B hB]
  · push Not
    exact hsh

/-- **C05 (exact acceptance).** For objects that exist (they passed their own constructor), of any dimensions,
`concat` succeeds exactly if at least one object is given, only result objects are given, all have the same numbers of
observations and repetitions, and none is clustered. -/
theorem C05_accepts_iff (l : List Operand) (hv : ∀ A, .fw A ∈ l → A.fw.Valid) :
    (∃ R, Framework.concat l = .ok R) ↔ ∃ (n r : ℕ) (As : List (FW n r)), As ≠ [] ∧
      l = As.map (fun A => .fw ⟨n, r, A⟩) ∧ ∀ A ∈ As, A.cluster = none := by
  have hm : ∀ (n r : ℕ) (As : List (FW n r)),
      (As.map (fun A => Operand.fw ⟨n, r, A⟩)).mapM Operand.fw? = some (As.map fun A => ⟨n, r, A⟩) := by
    intro n r As
    induction As with
    | nil => rfl
    | cons A As ih => simp [List.mapM_cons, Operand.fw?, ih]
  have hcast : ∀ (n r : ℕ) (As : List (FW n r)),
      (As.map (fun A => (⟨n, r, A⟩ : Framework))).mapM (Framework.cast? n r) = some As := by
    intro n r As
    induction As with
    | nil => rfl
    | cons A As ih => simp [List.mapM_cons, Framework.cast?, ih]
  constructor
  · rintro ⟨R, h⟩
    unfold Framework.concat at h
    cases h1 : l.mapM Operand.fw? with
    | none => rw [h1] at h; cases h
    | some Fs =>
      rw [h1] at h
      have hl : l = Fs.map .fw := by
        clear h hv
        induction l generalizing Fs with
        | nil => simp at h1; subst h1; rfl
        | cons x l ih =>
          simp only [List.mapM_cons, Option.bind_eq_bind, Option.bind_eq_some_iff, Option.pure_def, Option.some.injEq] at h1
          obtain ⟨a, ha, as, has, rfl⟩ := h1
          cases x with
          | other v => cases ha
          | fw A => cases ha; simp [ih _ has]
      cases Fs with
      | nil => cases h
      | cons A As =>
        dsimp only at h
        cases h2 : As.mapM (Framework.cast? A.n A.r) with
        | none => rw [h2] at h; cases h
        | some Bs =>
          rw [h2] at h
          dsimp only at h
          obtain ⟨C, hC, -⟩ := bind_ok h
          have hAs : As = Bs.map fun B => ⟨A.n, A.r, B⟩ := by
            clear h hC hl h1
            induction As generalizing Bs with
            | nil => simp at h2; subst h2; rfl
            | cons x As ih =>
              simp only [List.mapM_cons, Option.bind_eq_bind, Option.bind_eq_some_iff, Option.pure_def,
                Option.some.injEq] at h2
              obtain ⟨a, ha, as, has, rfl⟩ := h2
              rw [ih _ has]
              simp only [List.map_cons, List.cons.injEq, and_true]
              unfold Framework.cast? at ha
              split_ifs at ha with hd
              cases ha
              obtain ⟨n1, r1, f1⟩ := A
              obtain ⟨n2, r2, f2⟩ := x
              obtain ⟨h1, h2⟩ := hd
              simp only at h1 h2
              subst h1; subst h2
              rfl
          refine ⟨A.n, A.r, A.fw :: Bs, by simp, ?_, (FW.concat_ok hC).2.2.2.2.1⟩
          rw [hl, hAs]
          simp
  · rintro ⟨n, r, As, h0, rfl, hc⟩
    unfold Framework.concat
    rw [hm]
    cases As with
    | nil => exact absurd rfl h0
    | cons A As =>
      simp only [List.map_cons]
      rw [hcast]
      dsimp only
      rw [concat_valid h0 (fun B hB => hv ⟨n, r, B⟩ (List.mem_map.2 ⟨B, hB, rfl⟩)) hc]
      exact ⟨_, rfl⟩

/-- **C05 (nesting).** Concatenating a concatenation is the same as concatenating all objects at once, wherever the
nested call stands: the same object, or the same exception. -/
theorem C05_nested (As Bs Cs : List (FW n r)) (R : FW n r) (h : FW.concat Bs = .ok R) :
    FW.concat (As ++ R :: Cs) = FW.concat (As ++ Bs ++ Cs) := by
  have hB0 : Bs ≠ [] := (FW.concat_ok h).1
  rw [concat_eq hB0] at h
  split_ifs at h with h1 h2 h3
  obtain ⟨hR, hRs, -, -⟩ := FW.construct_ok h
  have hRc : R.cluster = none := by rw [hR]; rfl
  push Not at h1 h2 h3
  have hbc : ∀ B ∈ Bs, B.cluster.isSome = false := by
    intro B hB; simpa using h3 B hB
  obtain ⟨B0, hB0'⟩ := List.exists_mem_of_ne_nil Bs hB0
  -- membership in the two lists
  have hmem : ∀ P : FW n r → Prop, (P R ↔ ∀ B ∈ Bs, P B) →
      ((∀ B ∈ As ++ R :: Cs, P B) ↔ ∀ B ∈ As ++ Bs ++ Cs, P B) := by
    intro P hP
    simp only [List.mem_append, List.mem_cons, or_imp, forall_and, forall_eq]
    rw [hP]
    tauto
  have hRsens : R.sens.isSome = true ↔ ∀ B ∈ Bs, B.sens.isSome = true := by
    rw [hR]; simp only [FW.normBench, concatArgs]; split_ifs <;> simp_all
  have hRbench : (R.sens.isSome = true ∧ R.bench.isSome = true) ↔ ∀ B ∈ Bs, B.sens.isSome = true ∧ B.bench.isSome = true := by
    constructor
    · rintro ⟨h4, h5⟩
      rw [hRsens] at h4
      rw [hR] at h5
      simp only [FW.normBench, concatArgs] at h5
      split_ifs at h5 <;> simp_all
    · intro h4
      have h5 : ∀ B ∈ Bs, B.sens.isSome = true := fun B hB => (h4 B hB).1
      refine ⟨hRsens.2 h5, ?_⟩
      rw [hR]
      simp only [FW.normBench, concatArgs, if_pos h5, if_pos h4, Option.isSome_some, if_true]
  have hargs : concatArgs (As ++ R :: Cs) = concatArgs (As ++ Bs ++ Cs) := by
    apply FW.ext
    · have : R.blocks = (Bs.map FW.blocks).flatten := by rw [hR]; rfl
      simp [concatArgs, this]
    · rfl
    · simp only [concatArgs]
      by_cases hs : ∀ B ∈ As ++ R :: Cs, B.sens.isSome = true
      · rw [if_pos hs, if_pos ((hmem _ hRsens).1 hs)]
        have hs' : ∀ B ∈ Bs, B.sens.isSome = true := hRsens.1 (hs R (by simp))
        have : R.sens.getD [] = (Bs.map fun B => B.sens.getD []).flatten := by
          rw [hR]; simp only [FW.normBench, concatArgs, if_pos hs', Option.getD_some]
        simp [this]
      · rw [if_neg hs, if_neg (fun h => hs ((hmem _ hRsens).2 h))]
    · simp only [concatArgs]
      by_cases hs : ∀ B ∈ As ++ R :: Cs, B.sens.isSome = true ∧ B.bench.isSome = true
      · rw [if_pos hs, if_pos ((hmem _ hRbench).1 hs)]
        have hs' : ∀ B ∈ Bs, B.sens.isSome = true ∧ B.bench.isSome = true := hRbench.1 (hs R (by simp))
        have hs'' : ∀ B ∈ Bs, B.sens.isSome = true := fun B hB => (hs' B hB).1
        have : R.bench.getD [] = (Bs.map fun B => B.bench.getD []).flatten := by
          rw [hR]; simp only [FW.normBench, concatArgs, if_pos hs'', if_pos hs', Option.isSome_some, if_true, Option.getD_some]
        simp [this]
      · rw [if_neg hs, if_neg (fun h => hs ((hmem _ hRbench).2 h))]
    · rfl
  have hshape := hmem (fun B => B.shapesOk) ⟨fun _ => h1, fun _ => hRs⟩
  have hclu : (∃ B ∈ As ++ R :: Cs, B.cluster.isSome = true) ↔ ∃ B ∈ As ++ Bs ++ Cs, B.cluster.isSome = true := by
    have := hmem (fun B => ¬ B.cluster.isSome = true) ⟨fun _ B hB => by simp [hbc B hB], fun _ => by simp [hRc]⟩
    rw [← not_iff_not]
    push Not
    exact this
  have hmix : (∃ B ∈ As ++ R :: Cs, ∃ C ∈ As ++ R :: Cs, B.cluster.isSome ≠ C.cluster.isSome) ↔
      ∃ B ∈ As ++ Bs ++ Cs, ∃ C ∈ As ++ Bs ++ Cs, B.cluster.isSome ≠ C.cluster.isSome := by
    -- both lists contain a member without clusters, so both say that some member has clusters
    have key : ∀ (l : List (FW n r)) (X : FW n r), X ∈ l → X.cluster.isSome = false →
        ((∃ B ∈ l, ∃ C ∈ l, B.cluster.isSome ≠ C.cluster.isSome) ↔ ∃ B ∈ l, B.cluster.isSome = true) := by
      intro l X hX hXc
      constructor
      · rintro ⟨B, hB, C, hC, hne⟩
        by_cases hb : B.cluster.isSome = true
        · exact ⟨B, hB, hb⟩
        · exact ⟨C, hC, by
            simp only [Bool.not_eq_true] at hb
            rw [hb] at hne
            cases hcc : C.cluster.isSome
            · exact absurd hcc.symm hne
            · rfl⟩
      · rintro ⟨B, hB, hb⟩
        exact ⟨B, hB, X, hX, by rw [hb, hXc]; simp⟩
    rw [key _ R (by simp) (by simp [hRc]), key _ B0 (by simp [hB0']) (hbc B0 hB0'), hclu]
  have hshape' : (∃ B ∈ As ++ R :: Cs, ¬ B.shapesOk) ↔ ∃ B ∈ As ++ Bs ++ Cs, ¬ B.shapesOk := by
    rw [← not_iff_not]
    push Not
    exact hshape
  rw [concat_eq (by simp), concat_eq (by simp [hB0])]
  classical
  exact if_congr hshape' rfl (if_congr hmix rfl (if_congr hclu rfl (by rw [hargs])))

/-- **C05 (derived quantities).** Everything reported for a parameter is what the object it came from reports: t
statistics, p-values, pointwise confidence intervals of every level, and, if all objects have bias bounds, the results of
every sensitivity scenario. -/
theorem C05_derived (As : List (FW n r)) (R : FW n r) (h : FW.concat As = .ok R) :
    R.blocks.map Block.t = As.flatMap (fun A => A.blocks.map Block.t) ∧
    R.blocks.map Block.pval = As.flatMap (fun A => A.blocks.map Block.pval) ∧
    (∀ l, 0 < l → l < 1 → ∀ cis : List (List (ℝ × ℝ)),
      List.Forall₂ (fun A ci => A.confint none (.bool false) (.float l) = .ok ci) As cis →
        R.confint none (.bool false) (.float l) = .ok cis.flatten) ∧
    (∀ cfy cfd rho level (res : List (List SensRes)),
      List.Forall₂ (fun A t => A.calcSens cfy cfd rho level = .ok t) As res →
        R.calcSens cfy cfd rho level = .ok res.flatten) := by
  obtain ⟨hbl, hs, hc⟩ := C05_concat As R h
  obtain ⟨h0, -, -, -, hcl, -⟩ := FW.concat_ok h
  refine ⟨?_, ?_, ?_, ?_⟩
  · rw [hbl, List.map_flatMap]
  · rw [hbl, List.map_flatMap]
  · intro l hl0 hl1 cis hcis
    have hci : ∀ A : FW n r, A.confint none (.bool false) (.float l) = .ok (A.blocks.map fun b => b.ci fun _ => pointCrit l) := by
      intro A
      unfold FW.confint
      dsimp only
      rw [if_neg (by push Not; exact ⟨hl0, hl1⟩)]
      simp
    rw [hci, hbl]
    congr 1
    clear h hs h0 hcl hbl
    induction hcis with
    | nil => rfl
    | cons hA _ ih =>
      rw [hci] at hA
      cases hA
      simp [ih]
  · intro cfy cfd rho level res hres
    have hshapes : ∀ A ∈ As, A.shapesOk := by
      rw [concat_eq h0] at h
      split_ifs at h with h1 h2 h3
      push Not at h1
      exact h1
    have hall : ∀ A ∈ As, A.sens.isSome = true := by
      clear h hs h0 hcl hbl hshapes
      induction hres with
      | nil => simp
      | cons hA _ ih =>
        rename_i A t As res _
        intro B hB
        rcases List.mem_cons.1 hB with rfl | hB
        · by_contra hn
          simp only [Bool.not_eq_true, Option.isSome_eq_false_iff, Option.isNone_iff_eq_none] at hn
          simp [FW.calcSens, hn] at hA
        · exact ih B hB
    rw [if_pos hall] at hs
    have hargs : ∃ q, sensArgs cfy cfd rho level = .ok q := by
      cases hres with
      | nil => exact absurd rfl h0
      | cons hA _ =>
        rename_i A t As res _
        obtain ⟨es, he⟩ := Option.isSome_iff_exists.1 (hall A (by simp))
        simp only [FW.calcSens, he] at hA
        obtain ⟨q, hq, -⟩ := bind_ok hA
        exact ⟨q, hq⟩
    obtain ⟨⟨y, d, p, l⟩, hq⟩ := hargs
    have hcalc : ∀ A : FW n r, ∀ es, A.sens = some es → A.calcSens cfy cfd rho level =
        .ok (List.zipWith (fun b s => b.sensRes s A.cluster y d p l) A.blocks es) := by
      intro A es he
      simp only [FW.calcSens, he, hq, bind, Except.bind, pure, Except.pure]
    rw [hcalc R _ hs, hbl, hc]
    congr 1
    clear h hs h0 hbl
    induction hres with
    | nil => rfl
    | cons hA _ ih =>
      rename_i A t As res _
      obtain ⟨es, he⟩ := Option.isSome_iff_exists.1 (hall A (by simp))
      rw [hcalc A es he, hcl A (by simp)] at hA
      cases hA
      have hl : A.blocks.length = es.length := ((hshapes A (by simp)).1 es (by simp [he])).symm
      simp only [List.flatMap_cons, List.flatten_cons, he, Option.getD_some]
      rw [List.zipWith_append hl]
      congr 1
      exact ih (fun B hB => hcl B (by simp [hB])) (fun B hB => hshapes B (by simp [hB])) (fun B hB => hall B (by simp [hB]))

/-! ## Programs with several objects -/

/-- No statement takes an object away, and objects keep their place. -/
theorem Pool.step_length (E : Ext) (s : Pool) (o : PStmt) : s.length ≤ (s.step E o).length := by
  have hc : ∀ x, s.length ≤ (s.create x).length := by
    intro x
    unfold Pool.create
    split <;> simp
  cases o with
  | call i o => simp [Pool.step]
  | _ => exact hc _

/-- What one statement does to an existing object: a call addressed to it is a step of that object, everything else leaves
it as it is. -/
theorem Pool.step_get (E : Ext) (s : Pool) (o : PStmt) (i : ℕ) (x : FObj) (h : s[i]? = some x) :
    (s.step E o)[i]? = some { x with st := RState.run E x.st (callsTo i x.n x.r [o]) } := by
  have hi : i < s.length := (List.getElem?_eq_some_iff.1 h).1
  have hc : ∀ y, (s.create y)[i]? = some x := by
    intro y
    unfold Pool.create
    split
    · rw [List.getElem?_append_left hi, h]
    · exact h
  cases o with
  | call j o =>
    simp only [Pool.step, List.getElem?_modify, h, callsTo]
    by_cases hj : j = i
    · simp [hj, RState.run]
    · simp [hj, RState.run]
  | _ => exact hc _

theorem callsTo_cons (i n r : ℕ) (o : PStmt) (os : List PStmt) :
    callsTo i n r (o :: os) = callsTo i n r [o] ++ callsTo i n r os := by
  cases o with
  | call j o => by_cases hj : j = i <;> simp [callsTo, hj]
  | _ => simp [callsTo]

theorem RState.run_append (E : Ext) (s : RState n r) (as bs : List (Op n r)) :
    RState.run E s (as ++ bs) = RState.run E (RState.run E s as) bs := by
  induction as generalizing s with
  | nil => rfl
  | cons a as ih => simp [RState.run, ih]

/-- **C06 (several objects).** In any program that creates objects and calls their methods, in any interleaving, an object
is at the end in the state that the calls addressed to it alone would have produced: calls on other objects, and using the
object as an operand of arithmetic or `concat`, have no effect on it. -/
theorem C06_isolated (E : Ext) (s : Pool) (os : List PStmt) (i : ℕ) (x : FObj) (h : s[i]? = some x) :
    (s.run E os)[i]? = some { x with st := RState.run E x.st (callsTo i x.n x.r os) } := by
  induction os generalizing s x with
  | nil => simpa [Pool.run, callsTo, RState.run] using h
  | cons o os ih =>
    rw [Pool.run, ih _ _ (Pool.step_get E s o i x h)]
    rw [callsTo_cons i x.n x.r o os, RState.run_append]

/-- The framework a statement creates, if it creates one. -/
def Creates (s : Pool) (o : PStmt) (A : Framework) : Prop :=
  match o with
  | .call _ _ => False
  | .init d => frameworkInit d = .ok A
  | .add i a => ∃ x y, s[i]? = some x ∧ s.operand a = some y ∧ Framework.bin Block.add x.framework y = .ok A
  | .sub i a => ∃ x y, s[i]? = some x ∧ s.operand a = some y ∧ Framework.bin Block.sub x.framework y = .ok A
  | .mul i a => ∃ x y, s[i]? = some x ∧ s.operand a = some y ∧ Framework.mul x.framework y = .ok A
  | .concat l => ∃ ys, l.mapM s.operand = some ys ∧ Framework.concat ys = .ok A

theorem Pool.step_new (E : Ext) (s : Pool) (o : PStmt) :
    (∃ A, Creates s o A ∧ s.step E o = s ++ [A.fresh]) ∨ (s.step E o).length = s.length := by
  have hc : ∀ z : Option (Except Exc Framework), (∃ A, z = some (.ok A) ∧ s.create z = s ++ [A.fresh]) ∨
      (s.create z).length = s.length := by
    intro z
    rcases z with _ | (e | A)
    · exact .inr rfl
    · exact .inr rfl
    · exact .inl ⟨A, rfl, rfl⟩
  have hb : ∀ (i : ℕ) (a : PArg) (f : Framework → Operand → Except Exc Framework) (A : Framework),
      (do return f (← s[i]?).framework (← s.operand a) : Option (Except Exc Framework)) = some (.ok A) →
      ∃ x y, s[i]? = some x ∧ s.operand a = some y ∧ f x.framework y = .ok A := by
    intro i a f A h
    cases hx : s[i]? with
    | none => simp [hx] at h
    | some x =>
      cases hy : s.operand a with
      | none => simp [hx, hy] at h
      | some y =>
        refine ⟨x, y, rfl, rfl, ?_⟩
        simpa [hx, hy] using h
  cases o with
  | call i o => exact .inr (by simp [Pool.step])
  | init d =>
    rcases hc (some (frameworkInit d)) with ⟨A, h, hA⟩ | h
    · exact .inl ⟨A, by simpa [Creates] using h, hA⟩
    · exact .inr h
  | add i a =>
    rcases hc (do return Framework.bin Block.add (← s[i]?).framework (← s.operand a)) with ⟨A, h, hA⟩ | h
    · exact .inl ⟨A, hb i a _ A h, hA⟩
    · exact .inr h
  | sub i a =>
    rcases hc (do return Framework.bin Block.sub (← s[i]?).framework (← s.operand a)) with ⟨A, h, hA⟩ | h
    · exact .inl ⟨A, hb i a _ A h, hA⟩
    · exact .inr h
  | mul i a =>
    rcases hc (do return Framework.mul (← s[i]?).framework (← s.operand a)) with ⟨A, h, hA⟩ | h
    · exact .inl ⟨A, hb i a _ A h, hA⟩
    · exact .inr h
  | concat l =>
    rcases hc (do return Framework.concat (← l.mapM s.operand)) with ⟨A, h, hA⟩ | h
    · refine .inl ⟨A, ?_, hA⟩
      cases hx : l.mapM s.operand with
      | none => simp [hx] at h
      | some ys => exact ⟨ys, hx, by simpa [hx] using h⟩
    · exact .inr h

/-- **C06 (history of an object).** Every object of a program was created by one statement, without bootstrap results and
without sensitivity results, and its state at the end is the result of the calls made on it since then. -/
theorem C06_history (E : Ext) (os : List PStmt) (i : ℕ) (x : FObj) (h : (Pool.run E [] os)[i]? = some x) :
    ∃ pre o suf A, os = pre ++ o :: suf ∧ Creates (Pool.run E [] pre) o A ∧ (Pool.run E [] pre).length = i ∧
      x = ⟨A.n, A.r, RState.run E { fw := A.fw } (callsTo i A.n A.r suf)⟩ := by
  suffices H : ∀ (os : List PStmt) (s : Pool) (x : FObj), (s.run E os)[i]? = some x → s.length ≤ i →
      ∃ pre o suf A, os = pre ++ o :: suf ∧ Creates (s.run E pre) o A ∧ (s.run E pre).length = i ∧
        x = ⟨A.n, A.r, RState.run E { fw := A.fw } (callsTo i A.n A.r suf)⟩ from H os [] x h (by simp)
  clear h x os
  intro os
  induction os with
  | nil =>
    intro s x h hi
    rw [Pool.run, List.getElem?_eq_none hi] at h
    cases h
  | cons o os ih =>
    intro s x h hi
    rw [Pool.run] at h
    by_cases hlt : i < (s.step E o).length
    · rcases Pool.step_new E s o with ⟨A, hA, hs⟩ | hs
      · have hi' : s.length = i := by
          rw [hs] at hlt
          simp only [List.length_append, List.length_singleton] at hlt
          omega
        have hget : (s.step E o)[i]? = some A.fresh := by
          rw [hs, ← hi']
          simp
        rw [C06_isolated E _ os i _ hget] at h
        refine ⟨[], o, os, A, rfl, hA, hi', ?_⟩
        simp only [Option.some.injEq] at h
        exact h.symm
      · omega
    · obtain ⟨pre, o', suf, A, rfl, hA, hl, hx⟩ := ih (s.step E o) x h (by omega)
      exact ⟨o :: pre, o', suf, A, rfl, hA, hl, hx⟩

/-- **C06 (joint intervals in programs).** In any program, joint confidence intervals of an object are served exactly if an
admissible bootstrap call was made on this very object since its creation (bootstrap results of operands are not
inherited), and they use the draws of the latest such call. -/
theorem C06_program_joint (E : Ext) (os : List PStmt) (i : ℕ) (x : FObj) (h : (Pool.run E [] os)[i]? = some x)
    {l : ℝ} (h0 : 0 < l) (h1 : l < 1) :
    ∃ pre o suf A, os = pre ++ o :: suf ∧ Creates (Pool.run E [] pre) o A ∧ (Pool.run E [] pre).length = i ∧
      ((∃ out, (x.st.step E (.confint (.bool true) (.float l))).2 = .ok out) ↔
        ∃ bt, LastOf (BootCall A.fw) (callsTo i A.n A.r suf) bt) ∧
      ∀ bt, LastOf (BootCall A.fw) (callsTo i A.n A.r suf) bt →
        (x.st.step E (.confint (.bool true) (.float l))).2 =
          .ok (.cis (A.fw.blocks.map fun b => b.ci (jointCrit bt l))) := by
  obtain ⟨pre, o, suf, A, hos, hA, hl, rfl⟩ := C06_history E os i x h
  refine ⟨pre, o, suf, A, hos, hA, hl, (C06_joint_confint E A.fw _ h0 h1).1, (C06_joint_confint E A.fw _ h0 h1).2⟩

/-- Non-vacuity of C06 for programs: a result object is created from a dictionary and bootstrapped, then the sum of it
with itself is formed.  The sum exists, is a new object and has no bootstrap results. -/
example (E : Ext) (W : ∀ n r B : ℕ, Fin r → Fin B → Fin n → ℝ) : ∃ x,
    (Pool.run E [] [.init (.dict (exampleEnv true).toDict),
      .call 0 (fun n r => .bootstrap (.str "normal") (.int 500) (W n r)), .add 0 (.obj 0)])[1]? = some x ∧
    x.st.boot = none := by
  have hpl : (exampleEnv true).Plain 2 := by
    refine ⟨⟨?_, ?_⟩, rfl, ?_, ?_⟩
    · intro s hs; simp [exampleEnv] at hs
    · intro hs; simp [exampleEnv] at hs
    · intro bs hb; simp [exampleEnv] at hb
    · intro b hb; simp only [exampleEnv, List.mem_singleton] at hb; subst hb; rfl
  have hv : (exampleEnv true).Valid := FW.valid_iff.2 ⟨hpl.1, fun _ => rfl, fun bs hb => by simp [exampleEnv] at hb,
    fun ns hn => by simp [exampleEnv] at hn⟩
  have hi : frameworkInit (.dict (exampleEnv true).toDict) = .ok ⟨2, 1, exampleEnv true⟩ :=
    (C65_roundtrip _ _).2 ⟨_, hv, rfl⟩
  obtain ⟨S, eS, -, -⟩ := (FW.bin_plain (op := Block.add) (fun _ _ => rfl) hpl hpl).1 rfl
  set st := ((RState.mk (exampleEnv true) none none).step E (.bootstrap (.str "normal") (.int 500) (W 2 1))).1 with hst
  have hfw : st.fw = exampleEnv true := run_fw E (RState.mk (exampleEnv true) none none) [.bootstrap (.str "normal") (.int 500) (W 2 1)]
  have hadd : Framework.bin Block.add ⟨2, 1, st.fw⟩ (.fw ⟨2, 1, st.fw⟩) = .ok ⟨2, 1, S⟩ := by
    rw [hfw]
    unfold Framework.bin
    simp [eS, bind, Except.bind, pure, Except.pure]
  refine ⟨⟨2, 1, { fw := S }⟩, ?_, rfl⟩
  have h2 : Pool.run E [] [.init (.dict (exampleEnv true).toDict),
      .call 0 (fun n r => .bootstrap (.str "normal") (.int 500) (W n r)), .add 0 (.obj 0)] =
      [⟨2, 1, st⟩, ⟨2, 1, { fw := S }⟩] := by
    have h1 : Pool.step E [] (.init (.dict (exampleEnv true).toDict)) = [⟨2, 1, { fw := exampleEnv true }⟩] := by
      simp [Pool.step, hi, Pool.create, Framework.fresh]
    have h3 : Pool.step E [⟨2, 1, { fw := exampleEnv true }⟩]
        (.call 0 (fun n r => .bootstrap (.str "normal") (.int 500) (W n r))) = [⟨2, 1, st⟩] := rfl
    have h4 : Pool.step E [⟨2, 1, st⟩] (.add 0 (.obj 0)) = [⟨2, 1, st⟩, ⟨2, 1, { fw := S }⟩] := by
      have : Pool.step E [⟨2, 1, st⟩] (.add 0 (.obj 0)) =
          Pool.create [⟨2, 1, st⟩] (some (Framework.bin Block.add ⟨2, 1, st.fw⟩ (.fw ⟨2, 1, st.fw⟩))) := rfl
      rw [this, hadd]
      rfl
    simp only [Pool.run, h1, h3, h4]
  rw [h2]
  rfl

end DML
