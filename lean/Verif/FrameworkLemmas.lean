import Verif.FrameworkSpec

/-!
# Helper lemmas about framework arithmetic
-/

namespace DML

variable {n r : ℕ} {ι : Type}

theorem FW.construct_ok {A R : FW n r} (h : A.construct = .ok R) :
    R = A.normBench ∧ R.shapesOk ∧
      (∀ bs ∈ R.bench, ∀ b ∈ bs, b.ok) ∧ (∀ ns ∈ R.names, ns.length = R.blocks.length) := by
  unfold FW.construct at h
  generalize A.normBench = A' at h ⊢
  split_ifs at h with h1 h2 h3
  simp only [Except.ok.injEq] at h
  subst h
  push Not at h1 h3
  exact ⟨rfl, h2, h1, h3⟩

theorem FW.construct_eq_ok {A : FW n r} (hs : A.normBench.shapesOk)
    (hb : ∀ bs ∈ A.normBench.bench, ∀ b ∈ bs, b.ok)
    (hn : ∀ ns ∈ A.names, ns.length = A.blocks.length) :
    A.construct = .ok A.normBench := by
  unfold FW.construct
  rw [if_neg, if_neg (not_not.2 hs), if_neg]
  · push Not; exact hn
  · push Not; exact hb

theorem FW.bin_ok {op : Block n r → Block n r → Block n r} {A B R : FW n r}
    (h : FW.bin op A B = .ok R) :
    R.blocks = List.zipWith op A.blocks B.blocks ∧ A.blocks.length = B.blocks.length ∧
      R.cluster = A.cluster ∧ R.bench = none ∧ R.names = none ∧
      R.sens = sensBin A.sens B.sens ∧
      A.cluster.isSome = B.cluster.isSome ∧ A.shapesOk ∧ B.shapesOk ∧
      (∀ p ∈ A.blocks.zip B.blocks, allclose p.1.vsf p.2.vsf) := by
  unfold FW.bin at h
  split_ifs at h with h1 h2 h3 h4
  obtain ⟨rfl, -⟩ := FW.construct_ok h
  refine ⟨rfl, h3.1 rfl, rfl, ?_, rfl, rfl, h3.2, h1, h2, h4⟩
  simp [FW.normBench]

theorem FW.smul_ok {c : ℝ} {A R : FW n r} (h : FW.smul c A = .ok R) :
    R.blocks = A.blocks.map (Block.smul c) ∧ R.cluster = A.cluster ∧
      R.sens = A.sens.map (List.map (Sens.smul c)) ∧ R.names = none ∧
      R.bench = (if A.sens.isSome then A.bench.map (List.map (Bench.smul c)) else none) := by
  unfold FW.smul at h
  obtain ⟨rfl, -⟩ := FW.construct_ok h
  refine ⟨rfl, rfl, rfl, rfl, ?_⟩
  simp [FW.normBench]

theorem FW.concat_ok {As : List (FW n r)} {R : FW n r} (h : FW.concat As = .ok R) :
    As ≠ [] ∧ R.blocks = (As.map FW.blocks).flatten ∧ R.cluster = none ∧ R.names = none ∧
      (∀ A ∈ As, A.cluster = none) ∧
      ((∀ A ∈ As, A.sens.isSome) → R.sens = some (As.map fun B => B.sens.getD []).flatten) ∧
      ((¬ ∀ A ∈ As, A.sens.isSome) → R.sens = none) := by
  cases As with
  | nil => simp [FW.concat] at h
  | cons A As =>
    unfold FW.concat at h
    simp only at h
    by_cases h1 : ∃ B ∈ A :: As, ¬ B.shapesOk
    · rw [if_pos h1] at h; cases h
    by_cases h2 : ∃ B ∈ As, ¬ A.compatible B false
    · rw [if_neg h1, if_pos h2] at h; cases h
    by_cases h3 : ∃ B ∈ A :: As, B.cluster.isSome = true
    · rw [if_neg h1, if_neg h2, if_pos h3] at h; cases h
    rw [if_neg h1, if_neg h2, if_neg h3] at h
    obtain ⟨rfl, -⟩ := FW.construct_ok h
    refine ⟨by simp, rfl, rfl, rfl, ?_, fun h' => if_pos h', fun h' => if_neg h'⟩
    intro B hB
    by_contra hne
    exact h3 ⟨B, hB, by cases hc : B.cluster <;> simp_all⟩

theorem Block.consistent_iff (b : Block n r) : b.Consistent ↔
    b.theta = median b.allTheta ∧ b.se = aggSe b.allTheta b.allSe (fun _ => b.vsf) ∧
      b.allSe = recomputedSe b.psi b.vsf := by
  unfold Block.Consistent Influence.direct aggSe recomputedSe
  rw [Block.ext_iff]
  simp only
  constructor
  · rintro ⟨h1, h2, -, h3, -, -⟩
    refine ⟨h1, ?_, h3⟩
    rw [h2, h3]
  · rintro ⟨h1, h2, h3⟩
    refine ⟨h1, ?_, trivial, h3, trivial, trivial⟩
    rw [h2, h3]

theorem recomputedSe_smul (c : ℝ) (psi : Fin n → Fin r → ℝ) (v : ℝ) (k : Fin r) :
    recomputedSe (fun i k => c * psi i k) v k = |c| * recomputedSe psi v k := by
  unfold recomputedSe
  rw [← Real.sqrt_sq_eq_abs, ← Real.sqrt_mul (sq_nonneg c), ← mul_div_assoc, ← mean_mul_left]
  congr 3; funext i; ring

theorem recomputedSe_nonneg (psi : Fin n → Fin r → ℝ) (v : ℝ) (k : Fin r) :
    0 ≤ recomputedSe psi v k := Real.sqrt_nonneg _

theorem Block.add_consistent (a b : Block n r) : (a.add b).Consistent := by
  rw [Block.consistent_iff]; exact ⟨rfl, rfl, rfl⟩

theorem Block.sub_consistent (a b : Block n r) : (a.sub b).Consistent := by
  rw [Block.consistent_iff]; exact ⟨rfl, rfl, rfl⟩

theorem Block.smul_consistent {a : Block n r} (h : a.Consistent) {c : ℝ} (hc : 0 ≤ c) :
    (a.smul c).Consistent := by
  rw [Block.consistent_iff] at h ⊢
  obtain ⟨h1, h2, h3⟩ := h
  refine ⟨?_, ?_, ?_⟩
  · simp only [Block.smul, median_mul, h1]
  · simp only [Block.smul, aggSe_mul, h2, abs_of_nonneg hc]
  · funext k
    simp only [Block.smul, recomputedSe_smul, abs_of_nonneg hc, h3]

theorem combine_append (xs ys : List (ℝ × Block n r)) :
    combine (xs ++ ys) = ⟨fun k => (combine xs).theta k + (combine ys).theta k,
      fun i k => (combine xs).psi i k + (combine ys).psi i k⟩ := by
  simp [combine]

theorem combine_scale (c : ℝ) (xs : List (ℝ × Block n r)) :
    combine (xs.map fun t => (c * t.1, t.2)) = ⟨fun k => c * (combine xs).theta k,
      fun i k => c * (combine xs).psi i k⟩ := by
  simp only [combine, List.map_map, Function.comp_def, mul_assoc, List.sum_map_mul_left]

theorem combine_neg (xs : List (ℝ × Block n r)) :
    combine (xs.map fun t => (-t.1, t.2)) = ⟨fun k => - (combine xs).theta k,
      fun i k => - (combine xs).psi i k⟩ := by
  have := combine_scale (-1) xs
  simpa using this

theorem combine_single (b : Block n r) :
    combine [((1 : ℝ), b)] = ⟨b.allTheta, b.psi⟩ := by
  simp [combine]

theorem headVsf_append {xs ys : List (ℝ × Block n r)} (h : xs ≠ []) :
    headVsf (xs ++ ys) = headVsf xs := by
  cases xs <;> simp_all [headVsf]

theorem headVsf_map (f : ℝ × Block n r → ℝ) (xs : List (ℝ × Block n r)) :
    headVsf (xs.map fun t => (f t, t.2)) = headVsf xs := by
  cases xs <;> simp [headVsf]

theorem mem_zipWith {α β γ : Type*} {f : α → β → γ} {z : γ} :
    ∀ {xs : List α} {ys : List β}, z ∈ List.zipWith f xs ys → ∃ x ∈ xs, ∃ y ∈ ys, z = f x y
  | [], _, h => by simp at h
  | _ :: _, [], h => by simp at h
  | x :: xs, y :: ys, h => by
    simp only [List.zipWith_cons_cons, List.mem_cons] at h
    rcases h with rfl | h
    · exact ⟨x, by simp, y, by simp, rfl⟩
    · obtain ⟨x', hx, y', hy, rfl⟩ := mem_zipWith h
      exact ⟨x', by simp [hx], y', by simp [hy], rfl⟩

theorem Expr.terms_ne_nil (env : ι → FW n r) (e : Expr ι) : ∀ ts ∈ e.terms env, ts ≠ [] := by
  induction e with
  | leaf i => intro ts h; simp only [Expr.terms, List.mem_map] at h; obtain ⟨b, -, rfl⟩ := h; simp
  | add a b iha ihb =>
    intro ts h
    obtain ⟨x, hx, y, -, rfl⟩ := mem_zipWith h
    simp [iha x hx]
  | sub a b iha ihb =>
    intro ts h
    obtain ⟨x, hx, y, -, rfl⟩ := mem_zipWith h
    simp [iha x hx]
  | smul c a ih =>
    intro ts h; simp only [Expr.terms, List.mem_map] at h; obtain ⟨b, hb, rfl⟩ := h
    simpa using ih b hb
  | cat a b iha ihb =>
    intro ts h; simp only [Expr.terms, List.mem_append] at h
    exact h.elim (iha ts) (ihb ts)

/-- The part of a block that sums and differences are recomputed from. -/
def Block.core (b : Block n r) : (Fin r → ℝ) × (Fin n → Fin r → ℝ) × ℝ := (b.allTheta, b.psi, b.vsf)

theorem Block.add_of_core {a b : Block n r} {x y : List (ℝ × Block n r)} (hx : x ≠ [])
    (ha : a.core = ((combine x).direct (headVsf x)).core)
    (hb : b.core = ((combine y).direct (headVsf y)).core) :
    a.add b = (combine (x ++ y)).direct (headVsf (x ++ y)) := by
  simp only [Block.core, Influence.direct, Prod.mk.injEq] at ha hb
  obtain ⟨h1, h2, h3⟩ := ha
  obtain ⟨g1, g2, -⟩ := hb
  rw [headVsf_append hx, combine_append]
  simp only [Block.add, Influence.direct, aggTheta, aggSe, recomputedSe, h1, h2, h3, g1, g2]
  rfl

theorem Block.sub_of_core {a b : Block n r} {x y : List (ℝ × Block n r)} (hx : x ≠ [])
    (ha : a.core = ((combine x).direct (headVsf x)).core)
    (hb : b.core = ((combine y).direct (headVsf y)).core) :
    a.sub b = (combine (x ++ y.map fun t => (-t.1, t.2))).direct
      (headVsf (x ++ y.map fun t => (-t.1, t.2))) := by
  simp only [Block.core, Influence.direct, Prod.mk.injEq] at ha hb
  obtain ⟨h1, h2, h3⟩ := ha
  obtain ⟨g1, g2, -⟩ := hb
  rw [headVsf_append hx, combine_append, combine_neg]
  simp only [Block.sub, Influence.direct, aggTheta, aggSe, recomputedSe, h1, h2, h3, g1, g2,
    sub_eq_add_neg]
  rfl

theorem Block.smul_core (c : ℝ) {a : Block n r} {x : List (ℝ × Block n r)}
    (ha : a.core = ((combine x).direct (headVsf x)).core) :
    (a.smul c).core = ((combine (x.map fun t => (c * t.1, t.2))).direct
      (headVsf (x.map fun t => (c * t.1, t.2)))).core := by
  simp only [Block.core, Influence.direct, Prod.mk.injEq] at ha
  obtain ⟨h1, h2, h3⟩ := ha
  rw [headVsf_map, combine_scale]
  simp only [Block.core, Block.smul, Influence.direct, h1, h2, h3]

theorem forall₂_zipWith {α β γ δ ε ζ : Type*} {R : α → δ → Prop} {S : β → ε → Prop}
    {T : γ → ζ → Prop} {f : α → β → γ} {g : δ → ε → ζ}
    (hT : ∀ a d b e, R a d → S b e → T (f a b) (g d e)) :
    ∀ {xs : List α} {ds : List δ} {ys : List β} {es : List ε},
      List.Forall₂ R xs ds → List.Forall₂ S ys es →
        List.Forall₂ T (List.zipWith f xs ys) (List.zipWith g ds es)
  | _, _, _, _, .nil, _ => by simp
  | _, _, _, _, .cons _ _, .nil => by simp
  | _, _, _, _, .cons h hs, .cons k ks => by
    simp only [List.zipWith_cons_cons]
    exact .cons (hT _ _ _ _ h k) (forall₂_zipWith hT hs ks)

/-- The relation used in the induction: the core agrees, standard errors agree up to sign. -/
def Block.AgreesUpToSign (b : Block n r) (ts : List (ℝ × Block n r)) : Prop :=
  ts ≠ [] ∧ b.core = ((combine ts).direct (headVsf ts)).core ∧
  b.theta = ((combine ts).direct (headVsf ts)).theta ∧
  |b.se| = ((combine ts).direct (headVsf ts)).se ∧
  ∀ k, |b.allSe k| = ((combine ts).direct (headVsf ts)).allSe k

theorem Block.AgreesUpToSign.of_eq {b : Block n r} {ts : List (ℝ × Block n r)} (hne : ts ≠ [])
    (h : b = (combine ts).direct (headVsf ts)) : b.AgreesUpToSign ts := by
  refine ⟨hne, by rw [h], by rw [h], ?_, ?_⟩
  · rw [h]; exact abs_of_nonneg (Real.sqrt_nonneg _)
  · intro k; rw [h]; exact abs_of_nonneg (Real.sqrt_nonneg _)

end DML

namespace DML
variable {n r : ℕ} {ι : Type}

theorem allclose_self (v : ℝ) : allclose v v := by
  unfold allclose; rw [sub_self, abs_zero]; positivity

theorem FW.shapesOk_normBench {A : FW n r} (h : A.shapesOk) : A.normBench.shapesOk := by
  refine ⟨h.1, ?_⟩
  intro hs b hb
  simp only [FW.normBench] at hs hb ⊢
  rw [if_pos hs] at hb
  exact h.2 hs b hb

theorem FW.bin_plain {op : Block n r → Block n r → Block n r} (hop : ∀ a b, (op a b).vsf = a.vsf)
    {A B : FW n r} {v : ℝ} (hA : A.Plain v) (hB : B.Plain v) :
    (A.blocks.length = B.blocks.length →
      ∃ R, FW.bin op A B = .ok R ∧ R.Plain v ∧ R.blocks.length = A.blocks.length) ∧
    (A.blocks.length ≠ B.blocks.length → FW.bin op A B = .error .valueError) := by
  obtain ⟨hsA, hcA, hbA, hvA⟩ := hA
  obtain ⟨hsB, hcB, hbB, hvB⟩ := hB
  constructor
  · intro hlen
    have hcompat : A.compatible B true := ⟨fun _ => hlen, by rw [hcA, hcB]⟩
    have hvs : ∀ p ∈ A.blocks.zip B.blocks, allclose p.1.vsf p.2.vsf := by
      intro p hp
      obtain ⟨h1, h2⟩ := List.of_mem_zip (show (p.1, p.2) ∈ _ from hp)
      rw [hvA _ h1, hvB _ h2]; exact allclose_self v
    have hlenR : (List.zipWith op A.blocks B.blocks).length = A.blocks.length := by
      simp [hlen]
    unfold FW.bin
    rw [if_neg (not_not.2 hsA), if_neg (not_not.2 hsB), if_neg (not_not.2 hcompat),
      if_neg (not_not.2 hvs), FW.construct_eq_ok]
    · refine ⟨_, rfl, ⟨?_, ?_, ?_, ?_⟩, hlenR⟩
      · refine ⟨?_, ?_⟩
        · intro s hs
          simp only [FW.normBench] at hs ⊢
          rw [hlenR]
          cases h1 : A.sens with
          | none => rw [h1] at hs; cases hs
          | some sa =>
            cases h2 : B.sens with
            | none => rw [h1, h2] at hs; cases hs
            | some sb =>
              rw [h1, h2] at hs
              simp only [sensBin, Option.mem_def, Option.some.injEq] at hs
              subst hs
              have e1 := hsA.1 sa (by simp [h1])
              have e2 := hsB.1 sb (by simp [h2])
              simp [e1, e2, hlen]
        · intro _ b hb; simp [FW.normBench] at hb
      · simp [FW.normBench, hcA]
      · intro bs hbs; simp [FW.normBench] at hbs
      · intro b hb
        obtain ⟨x, hx, y, -, rfl⟩ := mem_zipWith hb
        rw [hop]; exact hvA x hx
    · apply FW.shapesOk_normBench
      refine ⟨?_, ?_⟩
      · intro s hs
        simp only at hs ⊢
        rw [hlenR]
        cases h1 : A.sens with
        | none => rw [h1] at hs; cases hs
        | some sa =>
          cases h2 : B.sens with
          | none => rw [h1, h2] at hs; cases hs
          | some sb =>
            rw [h1, h2] at hs
            simp only [sensBin, Option.mem_def, Option.some.injEq] at hs
            subst hs
            have e1 := hsA.1 sa (by simp [h1])
            have e2 := hsB.1 sb (by simp [h2])
            simp [e1, e2, hlen]
      · intro _ b hb; simp at hb
    · intro bs hbs; simp [FW.normBench] at hbs
    · intro ns hns; simp at hns
  · intro hlen
    unfold FW.bin
    rw [if_neg (not_not.2 hsA), if_neg (not_not.2 hsB), if_pos]
    intro h; exact hlen (h.1 rfl)

theorem Bench.smul_ok {b : Bench r} (h : b.ok) (c : ℝ) : (b.smul c).ok :=
  ⟨h.1, fun k => mul_nonneg (sq_nonneg _) (h.2 k)⟩

theorem FW.smul_plain {A : FW n r} {v : ℝ} (hA : A.Plain v) (c : ℝ) :
    ∃ R, FW.smul c A = .ok R ∧ R.Plain v ∧ R.blocks.length = A.blocks.length := by
  obtain ⟨hsA, hcA, hbA, hvA⟩ := hA
  unfold FW.smul
  set A' : FW n r := 
    { blocks := A.blocks.map (Block.smul c)
      cluster := A.cluster
      sens := A.sens.map (List.map (Sens.smul c))
      bench := A.bench.map (List.map (Bench.smul c))
      names := none } with hA'
  have hshape : A'.shapesOk := by
    refine ⟨?_, ?_⟩
    · intro s hs
      simp only [hA', Option.mem_def, Option.map_eq_some_iff] at hs
      obtain ⟨t, ht, rfl⟩ := hs
      simpa [hA'] using hsA.1 t ht
    · intro h b hb
      simp only [hA', Option.mem_def, Option.map_eq_some_iff] at hb
      obtain ⟨t, ht, rfl⟩ := hb
      simpa [hA'] using hsA.2 (by simpa [hA'] using h) t ht
  have hbench : ∀ bs ∈ A'.normBench.bench, ∀ b ∈ bs, b.ok := by
    intro bs hbs b hb
    simp only [hA', FW.normBench] at hbs
    split_ifs at hbs
    · simp only [Option.mem_def, Option.map_eq_some_iff] at hbs
      obtain ⟨t, ht, rfl⟩ := hbs
      obtain ⟨b', hb', rfl⟩ := List.mem_map.1 hb
      exact Bench.smul_ok (hbA t ht b' hb') c
    · cases hbs
  rw [FW.construct_eq_ok (FW.shapesOk_normBench hshape) hbench (by intro ns hns; simp [hA'] at hns)]
  refine ⟨_, rfl, ⟨FW.shapesOk_normBench hshape, hcA, hbench, ?_⟩, by simp [hA', FW.normBench]⟩
  intro b hb
  obtain ⟨b', hb', rfl⟩ := List.mem_map.1 hb
  exact hvA b' hb'

theorem FW.concat_pair_plain {A B : FW n r} {v : ℝ} (hA : A.Plain v) (hB : B.Plain v) :
    ∃ R, FW.concat [A, B] = .ok R ∧ R.Plain v ∧
      R.blocks.length = A.blocks.length + B.blocks.length := by
  obtain ⟨hsA, hcA, hbA, hvA⟩ := hA
  obtain ⟨hsB, hcB, hbB, hvB⟩ := hB
  unfold FW.concat
  simp only
  rw [if_neg, if_neg, if_neg]
  rotate_left
  · simp [hcA, hcB]
  · simp [FW.compatible, hcA, hcB]
  · simp [hsA, hsB]
  set R' : FW n r := 
    { blocks := ([A, B].map FW.blocks).flatten
      cluster := none
      sens := if ∀ C ∈ [A, B], C.sens.isSome then
            some ([A, B].map fun C => C.sens.getD []).flatten else none
      bench := if ∀ C ∈ [A, B], C.sens.isSome ∧ C.bench.isSome then
            some ([A, B].map fun C => C.bench.getD []).flatten else none
      names := none } with hR'
  have hshape : R'.shapesOk := by
    refine ⟨?_, ?_⟩
    · intro s hs
      simp only [hR'] at hs
      split_ifs at hs with h
      · simp only [List.mem_cons, List.not_mem_nil, or_false, forall_eq_or_imp, forall_eq] at h
        obtain ⟨sa, ha⟩ := Option.isSome_iff_exists.1 h.1
        obtain ⟨sb, hb⟩ := Option.isSome_iff_exists.1 h.2
        simp only [Option.mem_def, Option.some.injEq] at hs
        subst hs
        have e1 := hsA.1 sa (by simp [ha])
        have e2 := hsB.1 sb (by simp [hb])
        simp [hR', ha, hb, e1, e2]
      · cases hs
    · intro _ s hs
      simp only [hR'] at hs
      split_ifs at hs with h
      · simp only [List.mem_cons, List.not_mem_nil, or_false, forall_eq_or_imp, forall_eq] at h
        obtain ⟨sa, ha⟩ := Option.isSome_iff_exists.1 h.1.2
        obtain ⟨sb, hb⟩ := Option.isSome_iff_exists.1 h.2.2
        simp only [Option.mem_def, Option.some.injEq] at hs
        subst hs
        have e1 := hsA.2 h.1.1 sa (by simp [ha])
        have e2 := hsB.2 h.2.1 sb (by simp [hb])
        simp [hR', ha, hb, e1, e2]
      · cases hs
  have hbench : ∀ bs ∈ R'.normBench.bench, ∀ b ∈ bs, b.ok := by
    intro bs hbs b hb
    have hbs' : bs ∈ R'.bench := by
      simp only [FW.normBench] at hbs
      split_ifs at hbs with h
      · exact hbs
      · cases hbs
    simp only [hR'] at hbs'
    split_ifs at hbs' with h
    · simp only [List.mem_cons, List.not_mem_nil, or_false, forall_eq_or_imp, forall_eq] at h
      obtain ⟨sa, ha⟩ := Option.isSome_iff_exists.1 h.1.2
      obtain ⟨sb, hb'⟩ := Option.isSome_iff_exists.1 h.2.2
      simp only [Option.mem_def, Option.some.injEq] at hbs'
      subst hbs'
      simp only [ha, hb', List.map_cons, List.map_nil, Option.getD_some, List.flatten_cons,
        List.flatten_nil, List.append_nil, List.mem_append] at hb
      exact hb.elim (hbA sa (by simp [ha]) b) (hbB sb (by simp [hb']) b)
    · cases hbs'
  rw [FW.construct_eq_ok (FW.shapesOk_normBench hshape) hbench (by intro ns hns; simp [hR'] at hns)]
  refine ⟨_, rfl, ⟨FW.shapesOk_normBench hshape, rfl, hbench, ?_⟩, by simp [hR', FW.normBench]⟩
  intro b hb
  simp only [FW.normBench, hR', List.map_cons, List.map_nil, List.flatten_cons, List.flatten_nil,
    List.append_nil, List.mem_append] at hb
  exact hb.elim (hvA b) (hvB b)

end DML
