import Verif.FrameworkLemmas

/-!
# Properties of framework arithmetic, concatenation and inference (C01–C05, C07–C10)
-/

namespace DML

open Finset

variable {n r : ℕ} {ι : Type}

/-- **C01 (all scalars).** For every expression over consistent frameworks, whatever scalars it
contains: if the library's operators succeed, every resulting parameter has exactly the estimates,
scores and variance scaling of the corresponding linear combination, the aggregated estimate of direct
inference on it, and standard errors equal to those of direct inference up to sign. -/
theorem C01_arithmetic_up_to_sign (env : ι → FW n r)
    (hcons : ∀ i, ∀ b ∈ (env i).blocks, b.Consistent) (e : Expr ι) (R : FW n r)
    (h : e.eval env = .ok R) :
    List.Forall₂ Block.AgreesUpToSign R.blocks (e.terms env) := by
  induction e generalizing R with
  | leaf i =>
    simp only [Expr.eval, Except.ok.injEq] at h
    subst h
    rw [Expr.terms, List.forall₂_map_right_iff, List.forall₂_same]
    intro b hb
    refine .of_eq (by simp) ?_
    rw [combine_single]; exact hcons i b hb
  | add a b iha ihb =>
    obtain ⟨A, hA, h⟩ := bind_ok h
    obtain ⟨B, hB, h⟩ := bind_ok h
    obtain ⟨hbl, -⟩ := FW.bin_ok h
    rw [hbl, Expr.terms]
    refine forall₂_zipWith ?_ (iha A hA) (ihb B hB)
    intro a d b e hd he
    exact .of_eq (by simp [hd.1]) (Block.add_of_core hd.1 hd.2.1 he.2.1)
  | sub a b iha ihb =>
    obtain ⟨A, hA, h⟩ := bind_ok h
    obtain ⟨B, hB, h⟩ := bind_ok h
    obtain ⟨hbl, -⟩ := FW.bin_ok h
    rw [hbl, Expr.terms]
    refine forall₂_zipWith ?_ (iha A hA) (ihb B hB)
    intro a d b e hd he
    exact .of_eq (by simp [hd.1]) (Block.sub_of_core hd.1 hd.2.1 he.2.1)
  | smul c a ih =>
    obtain ⟨A, hA, h⟩ := bind_ok h
    obtain ⟨hbl, -⟩ := FW.smul_ok h
    rw [hbl, Expr.terms, List.forall₂_map_left_iff, List.forall₂_map_right_iff]
    refine (ih A hA).imp ?_
    rintro b ts ⟨hne, hcore, hth, hse, hall⟩
    have hv : headVsf (ts.map fun t => (c * t.1, t.2)) = headVsf ts := headVsf_map _ _
    have hall' : ∀ k, |(b.smul c).allSe k| = ((combine (ts.map fun t => (c * t.1, t.2))).direct
        (headVsf (ts.map fun t => (c * t.1, t.2)))).allSe k := by
      intro k
      have h2 : ((combine (ts.map fun t => (c * t.1, t.2))).direct
        (headVsf (ts.map fun t => (c * t.1, t.2)))).allSe k
          = |c| * ((combine ts).direct (headVsf ts)).allSe k := by
        rw [hv, combine_scale]; exact recomputedSe_smul c _ _ _
      rw [h2, ← hall k]; simp [Block.smul, abs_mul]
    refine ⟨by simpa using hne, Block.smul_core c hcore, ?_, ?_, hall'⟩
    · rw [hv, combine_scale]
      simp only [Block.smul, Influence.direct, hth, median_mul]
    · have h2 : ((combine (ts.map fun t => (c * t.1, t.2))).direct
        (headVsf (ts.map fun t => (c * t.1, t.2)))).se = |c| * ((combine ts).direct (headVsf ts)).se := by
        rw [hv, combine_scale]
        have := aggSe_mul c (combine ts).theta (recomputedSe (combine ts).psi (headVsf ts))
          (fun _ => headVsf ts)
        rw [show ((combine ts).direct (headVsf ts)).se = aggSe (combine ts).theta
          (recomputedSe (combine ts).psi (headVsf ts)) (fun _ => headVsf ts) from rfl, ← this]
        simp only [Influence.direct, aggSe]
        congr 2; funext k
        have := recomputedSe_smul c (combine ts).psi (headVsf ts) k
        unfold recomputedSe at this
        rw [this]; unfold recomputedSe; rw [mul_pow, sq_abs, mul_pow]
      rw [h2, ← hse]; simp [Block.smul, abs_mul]
  | cat a b iha ihb =>
    obtain ⟨A, hA, h⟩ := bind_ok h
    obtain ⟨B, hB, h⟩ := bind_ok h
    obtain ⟨-, hbl, -⟩ := FW.concat_ok h
    rw [hbl, Expr.terms]
    simpa using List.rel_append (iha A hA) (ihb B hB)

/-- **C01.** For every expression over consistent frameworks in which no *outermost* scalar is
negative (scalars inside sums and differences are arbitrary): if the library's operators succeed, the
result is exactly the direct inference on the corresponding linear combinations of influence
functions — estimates, standard errors, per repetition and aggregated. -/
theorem C01_arithmetic_is_direct_inference (env : ι → FW n r)
    (hcons : ∀ i, ∀ b ∈ (env i).blocks, b.Consistent) (e : Expr ι) (hs : e.SignOK) (R : FW n r)
    (h : e.eval env = .ok R) :
    R.blocks = (e.terms env).map fun ts => (combine ts).direct (headVsf ts) := by
  induction e generalizing R with
  | leaf i =>
    simp only [Expr.eval, Except.ok.injEq] at h
    subst h
    simp only [Expr.terms, List.map_map]
    conv_lhs => rw [← List.map_id (env i).blocks]
    apply List.map_congr_left
    intro b hb
    simp only [Function.comp, combine_single, headVsf, id]
    exact hcons i b hb
  | add a b iha ihb =>
    obtain ⟨A, hA, h⟩ := bind_ok h
    obtain ⟨B, hB, h⟩ := bind_ok h
    obtain ⟨hbl, -⟩ := FW.bin_ok h
    rw [hbl, Expr.terms, ← List.forall₂_eq_eq_eq, List.forall₂_map_right_iff]
    refine forall₂_zipWith ?_ (C01_arithmetic_up_to_sign env hcons a A hA)
      (C01_arithmetic_up_to_sign env hcons b B hB)
    intro a d b e hd he
    exact Block.add_of_core hd.1 hd.2.1 he.2.1
  | sub a b iha ihb =>
    obtain ⟨A, hA, h⟩ := bind_ok h
    obtain ⟨B, hB, h⟩ := bind_ok h
    obtain ⟨hbl, -⟩ := FW.bin_ok h
    rw [hbl, Expr.terms, ← List.forall₂_eq_eq_eq, List.forall₂_map_right_iff]
    refine forall₂_zipWith ?_ (C01_arithmetic_up_to_sign env hcons a A hA)
      (C01_arithmetic_up_to_sign env hcons b B hB)
    intro a d b e hd he
    exact Block.sub_of_core hd.1 hd.2.1 he.2.1
  | smul c a ih =>
    obtain ⟨A, hA, h⟩ := bind_ok h
    obtain ⟨hbl, -⟩ := FW.smul_ok h
    rw [hbl, ih hs.2 A hA, Expr.terms, List.map_map, List.map_map]
    apply List.map_congr_left
    intro ts _
    have hc : (((combine ts).direct (headVsf ts)).smul c).Consistent :=
      Block.smul_consistent (by unfold Block.Consistent; rfl) hs.1
    have hcore := Block.smul_core c (a := (combine ts).direct (headVsf ts)) (x := ts) rfl
    simp only [Function.comp]
    unfold Block.Consistent at hc
    rw [hc]
    simp only [Block.core, Prod.mk.injEq] at hcore
    obtain ⟨h1, h2, h3⟩ := hcore
    rw [h1, h2, h3]
    rfl
  | cat a b iha ihb =>
    obtain ⟨A, hA, h⟩ := bind_ok h
    obtain ⟨B, hB, h⟩ := bind_ok h
    obtain ⟨-, hbl, -⟩ := FW.concat_ok h
    rw [hbl, Expr.terms, List.map_append, ← iha hs.1 A hA, ← ihb hs.2 B hB]
    simp

/-- **C01 (completeness).** On frameworks of non-clustered models with a common variance scaling the
operators raise nothing but the dimension error: the expression evaluates iff its sums and differences
join equal numbers of parameters, and otherwise a `ValueError` is raised. -/
theorem C01_eval_succeeds_iff (env : ι → FW n r) (v : ℝ) (henv : ∀ i, (env i).Plain v) (e : Expr ι) :
    (∀ m, e.dim (fun i => (env i).blocks.length) = some m →
      ∃ R, e.eval env = .ok R ∧ R.Plain v ∧ R.blocks.length = m) ∧
    (e.dim (fun i => (env i).blocks.length) = none → e.eval env = .error .valueError) := by
  have key : ∀ (op : Block n r → Block n r → Block n r), (∀ a b, (op a b).vsf = a.vsf) →
      ∀ (a b : Expr ι) (f : Expr ι → Expr ι → Expr ι),
      ((f a b).eval env = do FW.bin op (← a.eval env) (← b.eval env)) →
      ((f a b).dim (fun i => (env i).blocks.length) = do
        let x ← a.dim (fun i => (env i).blocks.length)
        let y ← b.dim (fun i => (env i).blocks.length)
        if x = y then some x else none) →
      (∀ (e : Expr ι), e = a ∨ e = b → (∀ m, e.dim (fun i => (env i).blocks.length) = some m →
          ∃ R, e.eval env = .ok R ∧ R.Plain v ∧ R.blocks.length = m) ∧
        (e.dim (fun i => (env i).blocks.length) = none → e.eval env = .error .valueError)) →
      (∀ m, (f a b).dim (fun i => (env i).blocks.length) = some m →
        ∃ R, (f a b).eval env = .ok R ∧ R.Plain v ∧ R.blocks.length = m) ∧
      ((f a b).dim (fun i => (env i).blocks.length) = none →
        (f a b).eval env = .error .valueError) := by
    intro op hop a b f hev hdim ih
    obtain ⟨a1, a2⟩ := ih a (Or.inl rfl)
    obtain ⟨b1, b2⟩ := ih b (Or.inr rfl)
    rw [hev, hdim]
    cases hda : a.dim (fun i => (env i).blocks.length) with
    | none => refine ⟨fun m h => (by cases h), fun _ => ?_⟩; rw [a2 hda]; rfl
    | some x =>
      obtain ⟨A, hA, pA, lA⟩ := a1 x hda
      cases hdb : b.dim (fun i => (env i).blocks.length) with
      | none => refine ⟨fun m h => (by cases h), fun _ => ?_⟩; rw [hA, b2 hdb]; rfl
      | some y =>
        obtain ⟨B, hB, pB, lB⟩ := b1 y hdb
        have hbin := FW.bin_plain hop pA pB
        rw [hA, hB]
        simp only [Option.bind_eq_bind, Option.bind_some]
        refine ⟨?_, ?_⟩
        · intro m hm
          split_ifs at hm with hxy
          cases hm
          obtain ⟨R, hR, pR, lR⟩ := hbin.1 (by omega)
          exact ⟨R, hR, pR, by omega⟩
        · intro hm
          split_ifs at hm with hxy
          exact hbin.2 (by omega)
  induction e with
  | leaf i =>
    simp only [Expr.dim, Expr.eval, Option.some.injEq, reduceCtorEq, false_implies, and_true]
    rintro m rfl
    exact ⟨env i, rfl, henv i, rfl⟩
  | add a b iha ihb =>
    refine key Block.add (fun _ _ => rfl) a b Expr.add rfl rfl ?_
    rintro e (rfl | rfl) <;> assumption
  | sub a b iha ihb =>
    refine key Block.sub (fun _ _ => rfl) a b Expr.sub rfl rfl ?_
    rintro e (rfl | rfl) <;> assumption
  | smul c a ih =>
    refine ⟨?_, ?_⟩
    · intro m hm
      obtain ⟨A, hA, pA, lA⟩ := ih.1 m hm
      obtain ⟨R, hR, pR, lR⟩ := FW.smul_plain pA c
      exact ⟨R, by simp only [Expr.eval, hA]; exact hR, pR, by omega⟩
    · intro hm
      simp only [Expr.eval, ih.2 hm]; rfl
  | cat a b iha ihb =>
    simp only [Expr.dim, Expr.eval]
    cases hda : a.dim (fun i => (env i).blocks.length) with
    | none => refine ⟨fun m h => (by cases h), fun _ => ?_⟩; rw [iha.2 hda]; rfl
    | some x =>
      obtain ⟨A, hA, pA, lA⟩ := iha.1 x hda
      cases hdb : b.dim (fun i => (env i).blocks.length) with
      | none => refine ⟨fun m h => (by cases h), fun _ => ?_⟩; rw [hA, ihb.2 hdb]; rfl
      | some y =>
        obtain ⟨B, hB, pB, lB⟩ := ihb.1 y hdb
        refine ⟨?_, fun h => by cases h⟩
        intro m hm
        simp only [Option.bind_eq_bind, Option.bind_some, Option.some.injEq] at hm
        obtain ⟨R, hR, pR, lR⟩ := FW.concat_pair_plain pA pB
        exact ⟨R, by rw [hA, hB]; exact hR, pR, by omega⟩

/-- A concrete environment for the non-vacuity examples: two frameworks with two observations, one
repetition and one parameter each, obtained by direct inference. -/
noncomputable def exampleEnv : Bool → FW 2 1 := fun i =>
  { blocks := [(Influence.mk (fun _ => if i then 3 else 1)
      (fun j _ => if j = 0 then (if i then 2 else 1) else -1)).direct 2] }

/-- Non-vacuity of C01: `A - (-2) * B` over the example environment meets all hypotheses. -/
example : (∀ i, ∀ b ∈ (exampleEnv i).blocks, b.Consistent) ∧ (∀ i, (exampleEnv i).Plain 2) ∧
    (Expr.sub (.leaf true) (.smul (-2) (.leaf false)) : Expr Bool).SignOK ∧
    ∃ R, (Expr.sub (.leaf true) (.smul (-2) (.leaf false)) : Expr Bool).eval exampleEnv = .ok R := by
  have hpl : ∀ i, (exampleEnv i).Plain 2 := by
    intro i
    refine ⟨⟨?_, ?_⟩, rfl, ?_, ?_⟩
    · intro s hs; simp [exampleEnv] at hs
    · intro hs; simp [exampleEnv] at hs
    · intro bs hb; simp [exampleEnv] at hb
    · intro b hb; simp only [exampleEnv, List.mem_singleton] at hb; subst hb; rfl
  refine ⟨?_, hpl, trivial, ?_⟩
  · intro i b hb
    simp only [exampleEnv, List.mem_singleton] at hb
    subst hb
    unfold Block.Consistent; rfl
  · obtain ⟨R, hR, -⟩ := (C01_eval_succeeds_iff exampleEnv 2 hpl
      (Expr.sub (.leaf true) (.smul (-2) (.leaf false)))).1 1 rfl
    exact ⟨R, hR⟩

/-- **C01 (bias bounds).** If every leaf carries sensitivity elements, so does the result, and the
worst-case bias of every output parameter is the weighted sum `Σ |c| · bound` of the inputs' bounds —
for sums, differences, multiples and concatenations alike. -/
theorem C01_bias_bounds (env : ι → FW n r) (hsens : ∀ i, (env i).sens.isSome) (e : Expr ι) (R : FW n r)
    (h : e.eval env = .ok R) :
    R.sens = some ((e.sensTerms env).map combineSens) := by
  have hadd : ∀ x y : List (ℝ × Sens n r), Sens.add (combineSens x) (combineSens y)
      = combineSens (x ++ y) := by
    intro x y; simp [Sens.add, combineSens]
  have hneg : ∀ y : List (ℝ × Sens n r),
      combineSens (y.map fun t => (-t.1, t.2)) = combineSens y := by
    intro y; simp [combineSens, Function.comp_def]
  have hz : ∀ (f : List (ℝ × Sens n r) → List (ℝ × Sens n r)), (∀ y, combineSens (f y) = combineSens y) →
      ∀ xs ys : List (List (ℝ × Sens n r)),
      List.zipWith Sens.add (xs.map combineSens) (ys.map combineSens)
        = (List.zipWith (fun x y => x ++ f y) xs ys).map combineSens := by
    intro f hf xs ys
    rw [List.map_zipWith, List.zipWith_map]
    congr 1; funext x y; rw [← hf y, hadd]
  induction e generalizing R with
  | leaf i =>
    simp only [Expr.eval, Except.ok.injEq] at h
    subst h
    obtain ⟨s, hs⟩ := Option.isSome_iff_exists.1 (hsens i)
    simp only [hs, Expr.sensTerms, Option.getD_some, List.map_map, Option.some.injEq]
    conv_lhs => rw [← List.map_id s]
    apply List.map_congr_left
    intro b _
    simp [combineSens]
  | add a b iha ihb =>
    obtain ⟨A, hA, h⟩ := bind_ok h
    obtain ⟨B, hB, h⟩ := bind_ok h
    obtain ⟨-, -, -, -, -, hs, -⟩ := FW.bin_ok h
    rw [hs, iha A hA, ihb B hB]
    simp only [sensBin, Expr.sensTerms, Option.some.injEq]
    exact hz id (fun _ => rfl) _ _
  | sub a b iha ihb =>
    obtain ⟨A, hA, h⟩ := bind_ok h
    obtain ⟨B, hB, h⟩ := bind_ok h
    obtain ⟨-, -, -, -, -, hs, -⟩ := FW.bin_ok h
    rw [hs, iha A hA, ihb B hB]
    simp only [sensBin, Expr.sensTerms, Option.some.injEq]
    exact hz (fun y => y.map fun t => (-t.1, t.2)) hneg _ _
  | smul c a ih =>
    obtain ⟨A, hA, h⟩ := bind_ok h
    obtain ⟨-, -, hs, -⟩ := FW.smul_ok h
    rw [hs, ih A hA]
    simp only [Expr.sensTerms, Option.map_some, Option.some.injEq, List.map_map]
    apply List.map_congr_left
    intro x _
    simp only [Function.comp, Sens.smul, combineSens, List.map_map, Function.comp_def, abs_mul, mul_assoc,
      List.sum_map_mul_left]
  | cat a b iha ihb =>
    obtain ⟨A, hA, h⟩ := bind_ok h
    obtain ⟨B, hB, h⟩ := bind_ok h
    obtain ⟨-, -, -, -, -, hs, -⟩ := FW.concat_ok h
    rw [hs (by simp [iha A hA, ihb B hB])]
    simp [Expr.sensTerms, iha A hA, ihb B hB]

/-! ## C02: standard errors and intervals -/

/-- The confidence limits are ordered whenever standard errors and critical values are nonnegative. -/
theorem ci_ordered (b : Block n r) (crit : Fin r → ℝ) (hse : ∀ k, 0 ≤ b.allSe k)
    (hc : ∀ k, 0 ≤ crit k) : (b.ci crit).1 ≤ (b.ci crit).2 := by
  refine median_mono fun k => ?_
  have := mul_nonneg (hse k) (hc k)
  linarith

theorem pointCrit_pos {level : ℝ} (h0 : 0 < level) (h1 : level < 1) : 0 < pointCrit level :=
  ppf_pos (by linarith) (by linarith)

/-- **C02 (partial).** Every expression whose outermost scalars are nonnegative yields nonnegative
standard errors and confidence intervals with lower limit ≤ upper limit, at every level.  Missing from
the full property: outermost negative scalars, for which it is false (`C02_violated`). -/
theorem C02_ses_nonneg_partial (env : ι → FW n r)
    (hcons : ∀ i, ∀ b ∈ (env i).blocks, b.Consistent) (e : Expr ι) (hs : e.SignOK) (R : FW n r)
    (h : e.eval env = .ok R) (b : Block n r) (hb : b ∈ R.blocks) :
    0 ≤ b.se ∧ (∀ k, 0 ≤ b.allSe k) ∧
      ∀ level, 0 < level → level < 1 →
        (b.ci fun _ => pointCrit level).1 ≤ (b.ci fun _ => pointCrit level).2 := by
  rw [C01_arithmetic_is_direct_inference env hcons e hs R h] at hb
  obtain ⟨ts, -, rfl⟩ := List.mem_map.1 hb
  have h2 : ∀ k, 0 ≤ ((combine ts).direct (headVsf ts)).allSe k := fun k => Real.sqrt_nonneg _
  exact ⟨Real.sqrt_nonneg _, h2, fun level h0 h1 =>
    ci_ordered _ _ h2 fun _ => (pointCrit_pos h0 h1).le⟩

/-- **C02 is false for negative scalars**, for every framework: multiplying by `c < 0` turns every
positive standard error negative and inverts every confidence interval, at every level. -/
theorem C02_negative_scalar (A R : FW n r) (c : ℝ) (hc : c < 0) (h : FW.smul c A = .ok R)
    (hr : 0 < r) (a : Block n r) (ha : a ∈ A.blocks) (hse : 0 < a.se) (hall : ∀ k, 0 < a.allSe k) :
    ∃ b ∈ R.blocks, b.theta = c * a.theta ∧ b.se < 0 ∧ (∀ k, b.allSe k < 0) ∧
      ∀ level, 0 < level → level < 1 →
        (b.ci fun _ => pointCrit level).2 < (b.ci fun _ => pointCrit level).1 := by
  obtain ⟨hbl, -⟩ := FW.smul_ok h
  refine ⟨a.smul c, by rw [hbl]; exact List.mem_map_of_mem ha, rfl, mul_neg_of_neg_of_pos hc hse,
    fun k => mul_neg_of_neg_of_pos hc (hall k), ?_⟩
  intro level h0 h1
  refine median_strictMono hr fun k => ?_
  have := pointCrit_pos h0 h1
  have h3 := mul_neg_of_neg_of_pos hc (hall k)
  simp only [Block.smul]
  nlinarith

/-- **C02 violated**: a concrete consistent framework and a scalar for which the reported standard
error is negative and the 95% interval has its limits swapped. -/
theorem C02_violated : ∃ (A R : FW 2 1) (b : Block 2 1), (∀ a ∈ A.blocks, a.Consistent) ∧
    FW.smul (-1) A = .ok R ∧ b ∈ R.blocks ∧ b.se < 0 ∧
    (b.ci fun _ => pointCrit 0.95).2 < (b.ci fun _ => pointCrit 0.95).1 := by
  have hpl : (exampleEnv true).Plain 2 := by
    refine ⟨⟨?_, ?_⟩, rfl, ?_, ?_⟩
    · intro s hs; simp [exampleEnv] at hs
    · intro hs; simp [exampleEnv] at hs
    · intro bs hb; simp [exampleEnv] at hb
    · intro b hb; simp only [exampleEnv, List.mem_singleton] at hb; subst hb; rfl
  obtain ⟨R, hR, -⟩ := FW.smul_plain hpl (-1)
  have hpos : 0 < (mean fun i : Fin 2 => (if i = 0 then (2 : ℝ) else -1) ^ 2) / 2 := by
    norm_num [mean, Fin.sum_univ_two]
  obtain ⟨b, hb, -, h1, -, h2⟩ := C02_negative_scalar (exampleEnv true) R (-1) (by norm_num) hR
    (by norm_num) _ (List.mem_singleton_self _)
    (by
      simp only [Influence.direct, median_one, sub_self, if_true]
      rw [Real.sqrt_pos, Real.sq_sqrt hpos.le]
      simpa using hpos)
    (by
      intro k
      simp only [Influence.direct, if_true]
      exact Real.sqrt_pos.2 hpos)
  refine ⟨exampleEnv true, R, b, ?_, hR, hb, h1, h2 0.95 (by norm_num) (by norm_num)⟩
  intro a ha
  simp only [exampleEnv, List.mem_singleton] at ha
  subst ha
  unfold Block.Consistent; rfl

/-! ## C03: algebraic laws -/

/-- **C03.** Algebraic laws in one statement: any two expressions that denote the same linear
combinations (and whose outermost scalars are nonnegative) give the same estimates, standard errors and
scores, however they are bracketed or ordered. -/
theorem C03_equal_denotation (env : ι → FW n r)
    (hcons : ∀ i, ∀ b ∈ (env i).blocks, b.Consistent) (e₁ e₂ : Expr ι) (h₁ : e₁.SignOK) (h₂ : e₂.SignOK)
    (R₁ R₂ : FW n r) (hR₁ : e₁.eval env = .ok R₁) (hR₂ : e₂.eval env = .ok R₂)
    (hden : ((e₁.terms env).map fun ts => (combine ts, headVsf ts))
      = (e₂.terms env).map fun ts => (combine ts, headVsf ts)) :
    R₁.blocks = R₂.blocks := by
  rw [C01_arithmetic_is_direct_inference env hcons e₁ h₁ R₁ hR₁,
    C01_arithmetic_is_direct_inference env hcons e₂ h₂ R₂ hR₂]
  have := congrArg (List.map fun p : Influence n r × ℝ => p.1.direct p.2) hden
  simpa [List.map_map, Function.comp_def] using this

end DML
