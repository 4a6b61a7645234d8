import Verif.FrameworkProps

/-!
# Algebraic laws, clustering and concatenation (C03–C05)
-/

namespace DML

open Finset

variable {n r : ℕ}

theorem FW.shapes_zipWith {A B : FW n r} (hsA : A.shapesOk) (hsB : B.shapesOk)
    (hlen : A.blocks.length = B.blocks.length) (s : List (Sens n r))
    (hs : sensBin A.sens B.sens = some s) : s.length = A.blocks.length := by
  cases h1 : A.sens with
  | none => rw [h1] at hs; cases hs
  | some sa =>
    cases h2 : B.sens with
    | none => rw [h1, h2] at hs; cases hs
    | some sb =>
      rw [h1, h2] at hs
      simp only [sensBin, Option.some.injEq] at hs
      subst hs
      have e1 := hsA.1 sa (by simp [h1])
      have e2 := hsB.1 sb (by simp [h2])
      simp [e1, e2, hlen]

/-- The exact result of `+`/`-` on frameworks whose checks pass. -/
theorem FW.bin_eq_ok {op : Block n r → Block n r → Block n r} {A B : FW n r} (hsA : A.shapesOk)
    (hsB : B.shapesOk) (hc : A.compatible B true)
    (hv : ∀ p ∈ A.blocks.zip B.blocks, allclose p.1.vsf p.2.vsf) :
    FW.bin op A B = .ok
      { blocks := List.zipWith op A.blocks B.blocks
        cluster := A.cluster
        sens := sensBin A.sens B.sens
        bench := none
        names := none } := by
  have hlen := hc.1 rfl
  unfold FW.bin
  rw [if_neg (not_not.2 hsA), if_neg (not_not.2 hsB), if_neg (not_not.2 hc), if_neg (not_not.2 hv),
    FW.construct_eq_ok]
  · simp [FW.normBench]
  · apply FW.shapesOk_normBench
    refine ⟨?_, ?_⟩
    · intro s hs
      simp only at hs ⊢
      rw [FW.shapes_zipWith hsA hsB hlen s hs]
      simp [hlen]
    · intro _ b hb; simp at hb
  · intro bs hbs; simp [FW.normBench] at hbs
  · intro ns hns; simp at hns

/-- **C01/C03 (exact acceptance).** `A + B` (and `A - B`) succeeds iff the internal shapes are
consistent, the numbers of parameters agree, both or neither are clustered, and the scaling factors
agree up to `np.allclose`. -/
theorem C03_add_succeeds_iff (op : Block n r → Block n r → Block n r) (A B : FW n r) :
    (∃ R, FW.bin op A B = .ok R) ↔ A.shapesOk ∧ B.shapesOk ∧
      A.blocks.length = B.blocks.length ∧ A.cluster.isSome = B.cluster.isSome ∧
      ∀ p ∈ A.blocks.zip B.blocks, allclose p.1.vsf p.2.vsf := by
  constructor
  · rintro ⟨R, h⟩
    obtain ⟨-, h1, -, -, -, -, h2, h3, h4, h5⟩ := FW.bin_ok h
    exact ⟨h3, h4, h1, h2, h5⟩
  · rintro ⟨h1, h2, h3, h4, h5⟩
    exact ⟨_, FW.bin_eq_ok h1 h2 ⟨fun _ => h3, h4⟩ h5⟩

theorem Block.add_comm {a b : Block n r} (h : a.vsf = b.vsf) : a.add b = b.add a := by
  unfold Block.add
  simp only [h, _root_.add_comm (a.allTheta _), _root_.add_comm (a.psi _ _)]

theorem zipWith_comm_mem {α γ : Type*} {f g : α → α → γ} :
    ∀ {xs ys : List α}, (∀ x ∈ xs, ∀ y ∈ ys, f x y = g y x) →
      List.zipWith f xs ys = List.zipWith g ys xs
  | [], _, _ => by simp
  | _ :: _, [], _ => by simp
  | x :: xs, y :: ys, h => by
    simp only [List.zipWith_cons_cons, List.cons.injEq]
    exact ⟨h x (by simp) y (by simp),
      zipWith_comm_mem fun x' hx y' hy => h x' (by simp [hx]) y' (by simp [hy])⟩

theorem FW.Plain.bin_eq_ok {op : Block n r → Block n r → Block n r} {A B : FW n r} {v : ℝ}
    (hA : A.Plain v) (hB : B.Plain v) (hlen : A.blocks.length = B.blocks.length) :
    FW.bin op A B = .ok
      { blocks := List.zipWith op A.blocks B.blocks
        cluster := none
        sens := sensBin A.sens B.sens
        bench := none
        names := none } := by
  have := FW.bin_eq_ok (op := op) hA.1 hB.1 ⟨fun _ => hlen, by rw [hA.2.1, hB.2.1]⟩ (by
    intro p hp
    obtain ⟨h1, h2⟩ := List.of_mem_zip (show (p.1, p.2) ∈ _ from hp)
    rw [hA.2.2.2 _ h1, hB.2.2.2 _ h2]; exact allclose_self v)
  rw [this, hA.2.1]

/-- **C03 (commutativity).** `A + B` and `B + A` are the same framework — estimates, standard errors,
scores and bias bounds. -/
theorem C03_add_comm (A B : FW n r) (v : ℝ) (hA : A.Plain v) (hB : B.Plain v)
    (hlen : A.blocks.length = B.blocks.length) :
    ∃ R, FW.add A B = .ok R ∧ FW.add B A = .ok R := by
  refine ⟨_, hA.bin_eq_ok hB hlen, ?_⟩
  rw [FW.add, hB.bin_eq_ok hA hlen.symm]
  simp only [Except.ok.injEq, FW.mk.injEq, and_true, true_and]
  refine ⟨?_, ?_⟩
  · exact zipWith_comm_mem fun x hx y hy =>
      Block.add_comm ((hB.2.2.2 x hx).trans (hA.2.2.2 y hy).symm)
  · cases A.sens <;> cases B.sens <;> simp only [sensBin]
    congr 1
    exact zipWith_comm_mem fun x _ y _ => by simp [Sens.add, _root_.add_comm]

/-- **C03 (associativity).** `(A + B) + C` and `A + (B + C)` both succeed and are the same framework. -/
theorem C03_add_assoc (A B C : FW n r) (v : ℝ) (hA : A.Plain v) (hB : B.Plain v) (hC : C.Plain v)
    (h1 : A.blocks.length = B.blocks.length) (h2 : B.blocks.length = C.blocks.length) :
    ∃ AB BC R, FW.add A B = .ok AB ∧ FW.add B C = .ok BC ∧ FW.add AB C = .ok R ∧
      FW.add A BC = .ok R := by
  obtain ⟨AB, eAB, pAB, lAB⟩ := (FW.bin_plain (op := Block.add) (fun _ _ => rfl) hA hB).1 h1
  obtain ⟨BC, eBC, pBC, lBC⟩ := (FW.bin_plain (op := Block.add) (fun _ _ => rfl) hB hC).1 h2
  refine ⟨AB, BC, _, eAB, eBC, pAB.bin_eq_ok hC (by omega), ?_⟩
  rw [FW.add, hA.bin_eq_ok pBC (by omega)]
  have e1 := hA.bin_eq_ok (op := Block.add) hB h1
  have e2 := hB.bin_eq_ok (op := Block.add) hC h2
  rw [e1] at eAB; rw [e2] at eBC
  cases eAB; cases eBC
  simp only [Except.ok.injEq, FW.mk.injEq, and_true, true_and]
  refine ⟨?_, ?_⟩
  · generalize A.blocks = as at *
    generalize B.blocks = bs at *
    generalize C.blocks = cs at *
    clear e1 e2 pAB pBC lAB lBC h1 h2
    have hop : ∀ a b c : Block n r, a.add (b.add c) = (a.add b).add c := by
      intro a b c; unfold Block.add; simp only [_root_.add_assoc]
    induction as generalizing bs cs with
    | nil => simp
    | cons a as ih =>
      cases bs <;> cases cs <;> simp [hop, ih]
  · have hop : ∀ a b c : Sens n r, a.add (b.add c) = (a.add b).add c := by
      intro a b c; unfold Sens.add; simp only [_root_.add_assoc]
    cases A.sens with
    | none => simp [sensBin]
    | some as =>
      cases B.sens with
      | none => simp [sensBin]
      | some bs =>
        cases C.sens with
        | none => simp [sensBin]
        | some cs =>
          simp only [sensBin, Option.some.injEq]
          induction as generalizing bs cs with
          | nil => simp
          | cons a as ih => cases bs <;> cases cs <;> simp [hop, ih]

/-- **C03 (subtraction).** `A - B` is the same framework as `A + (-1) * B` — although `(-1) * B` on
its own reports negative standard errors, the sum repairs them. -/
theorem C03_sub_eq_add_neg (A B : FW n r) (v : ℝ) (hA : A.Plain v) (hB : B.Plain v)
    (hlen : A.blocks.length = B.blocks.length) :
    ∃ N R, FW.smul (-1) B = .ok N ∧ FW.sub A B = .ok R ∧ FW.add A N = .ok R := by
  obtain ⟨N, eN, pN, lN⟩ := FW.smul_plain hB (-1)
  refine ⟨N, _, eN, hA.bin_eq_ok hB hlen, ?_⟩
  rw [FW.add, hA.bin_eq_ok pN (by omega)]
  obtain ⟨hbl, -, hs, -⟩ := FW.smul_ok eN
  rw [hbl, hs]
  simp only [Except.ok.injEq, FW.mk.injEq, and_true, true_and]
  refine ⟨?_, ?_⟩
  · rw [List.zipWith_map_right]
    congr 1; funext a b
    simp only [Block.add, Block.sub, Block.smul, neg_mul, one_mul, sub_eq_add_neg]
  · cases A.sens <;> cases B.sens <;> simp only [sensBin, Option.map_some, Option.map_none]
    congr 1
    rw [List.zipWith_map_right]
    congr 1; funext a b
    simp [Sens.add, Sens.smul]

/-- **C03 (self-difference).** `A - A` has estimate `0` and standard error `0` in every repetition. -/
theorem C03_self_difference (A R : FW n r) (h : FW.sub A A = .ok R) :
    R.blocks.length = A.blocks.length ∧ ∀ b ∈ R.blocks, (∀ k, b.allTheta k = 0 ∧ b.allSe k = 0) ∧
      b.theta = 0 ∧ b.se = 0 := by
  obtain ⟨hbl, -⟩ := FW.bin_ok h
  refine ⟨by simp [hbl], ?_⟩
  intro b hb
  rw [hbl, List.zipWith_self, List.mem_map] at hb
  obtain ⟨a, -, rfl⟩ := hb
  have hm : median (fun _ : Fin r => (0 : ℝ)) = 0 := by
    rcases Nat.eq_zero_or_pos r with rfl | hr
    · simp [median]
    · exact median_const hr 0
  have hse : ∀ k, (a.sub a).allSe k = 0 := by
    intro k
    simp [Block.sub, recomputedSe, mean]
  refine ⟨fun k => ⟨by simp [Block.sub], hse k⟩, ?_, ?_⟩
  · simp only [Block.sub, sub_self]; exact hm
  · have : (a.sub a).se = aggSe (fun _ => 0) (a.sub a).allSe (fun _ => a.vsf) := by
      simp only [Block.sub, sub_self]
    rw [this, show (a.sub a).allSe = fun _ => (0 : ℝ) from funext hse]
    simp [aggSe, hm]

/-- **C03 (distributivity over nonnegative scalars).** `c * (A + B) = c * A + c * B`. -/
theorem C03_distrib (A B : FW n r) (v c : ℝ) (hc : 0 ≤ c) (hA : A.Plain v) (hB : B.Plain v)
    (hlen : A.blocks.length = B.blocks.length) :
    ∃ S CA CB R, FW.add A B = .ok S ∧ FW.smul c A = .ok CA ∧ FW.smul c B = .ok CB ∧
      FW.smul c S = .ok R ∧ FW.add CA CB = .ok R := by
  obtain ⟨S, eS, pS, lS⟩ := (FW.bin_plain (op := Block.add) (fun _ _ => rfl) hA hB).1 hlen
  obtain ⟨CA, eCA, pCA, lCA⟩ := FW.smul_plain hA c
  obtain ⟨CB, eCB, pCB, lCB⟩ := FW.smul_plain hB c
  obtain ⟨R, eR, pR, lR⟩ := FW.smul_plain pS c
  refine ⟨S, CA, CB, R, eS, eCA, eCB, eR, ?_⟩
  rw [FW.add, pCA.bin_eq_ok pCB (by omega)]
  obtain ⟨a1, a2, a3, -⟩ := FW.smul_ok eCA
  obtain ⟨b1, b2, b3, -⟩ := FW.smul_ok eCB
  obtain ⟨r1, r2, r3, r4, r5⟩ := FW.smul_ok eR
  obtain ⟨s1, -, s2, s3, s4, s5, -⟩ := FW.bin_ok eS
  simp only [Except.ok.injEq]
  rw [FW.ext_iff]
  simp only [a1, a3, b1, b3, r1, r2, r3, r4, r5, s1, s2, s3, s5, hA.2.1]
  refine ⟨?_, trivial, ?_, by simp, trivial⟩
  · rw [List.map_zipWith, List.zipWith_map]
    congr 1; funext a b
    have hcons := Block.smul_consistent (Block.add_consistent a b) hc
    have hcons2 := Block.add_consistent (a.smul c) (b.smul c)
    unfold Block.Consistent at hcons hcons2
    rw [hcons, hcons2]
    simp only [Block.add, Block.smul, mul_add]
  · cases A.sens <;> cases B.sens <;> simp only [sensBin, Option.map_some, Option.map_none]
    congr 1
    rw [List.map_zipWith, List.zipWith_map]
    congr 1; funext a b
    simp [Sens.add, Sens.smul, mul_add]

/-- Non-vacuity for the laws: two plain frameworks with one parameter each and nonzero scores. -/
example : (exampleEnv true).Plain 2 ∧ (exampleEnv false).Plain 2 ∧
    (exampleEnv true).blocks.length = (exampleEnv false).blocks.length := by
  refine ⟨?_, ?_, rfl⟩ <;>
  · refine ⟨⟨?_, ?_⟩, rfl, ?_, ?_⟩
    · intro s hs; simp [exampleEnv] at hs
    · intro hs; simp [exampleEnv] at hs
    · intro bs hb; simp [exampleEnv] at hb
    · intro b hb; simp only [exampleEnv, List.mem_singleton] at hb; subst hb; rfl

/-- **C03 (the acceptance check is not symmetric).** `np.allclose` is relative to its second argument:
there are frameworks for which `A + B` succeeds while `B + A` raises an `AssertionError`. -/
theorem C03_acceptance_not_symmetric : ∃ A B : FW 1 1,
    (∃ R, FW.add A B = .ok R) ∧ FW.add B A = .error .assertion := by
  let blk : ℝ → FW 1 1 := fun v => { blocks := [(Influence.mk (fun _ => 0) (fun _ _ => 0)).direct v] }
  have hs : ∀ v, (blk v).shapesOk := fun v => ⟨by intro s hs; simp [blk] at hs, by intro h; simp [blk] at h⟩
  have hc : ∀ v w, (blk v).compatible (blk w) true := fun v w => ⟨fun _ => rfl, rfl⟩
  have hv : ∀ v w, (∀ p ∈ (blk v).blocks.zip (blk w).blocks, allclose p.1.vsf p.2.vsf) ↔ allclose v w := by
    intro v w; simp [blk, Influence.direct]
  have h1 : allclose 100000 100001 := by
    unfold allclose; rw [abs_of_nonpos (by norm_num), abs_of_nonneg (by norm_num)]; norm_num
  have h2 : ¬ allclose 100001.00001 100000 := by
    unfold allclose; rw [abs_of_nonneg (by norm_num), abs_of_nonneg (by norm_num)]; norm_num
  have h3 : allclose 100000 100001.00001 := by
    unfold allclose; rw [abs_of_nonpos (by norm_num), abs_of_nonneg (by norm_num)]; norm_num
  refine ⟨blk 100000, blk 100001.00001, ?_, ?_⟩
  · exact ⟨_, FW.bin_eq_ok (hs _) (hs _) (hc _ _) ((hv _ _).2 h3)⟩
  · unfold FW.add FW.bin
    rw [if_neg (not_not.2 (hs _)), if_neg (not_not.2 (hs _)), if_neg (not_not.2 (hc _ _)), if_pos]
    rw [hv]; exact h2

/-! ## C04: clustering -/

/-- The standard errors of a clustered framework are those of the cluster-robust variance estimator on
its scores. -/
def FW.ClusterRobust (A : FW n r) : Prop :=
  ∃ ci, A.cluster = some ci ∧ ∀ b ∈ A.blocks, ∀ k,
    b.allSe k = Real.sqrt (varEst (fun i => b.psi i k) (fun _ => 1) (some (ci k))).1

/-- Four observations in two clusters of two, two folds of one cluster each. -/
def exampleCluster : ClusterRep 4 where
  vars := .one fun i => if (i : ℕ) < 2 then 0 else 1
  smpls := [⟨[2, 3], [0, 1]⟩, ⟨[0, 1], [2, 3]⟩]
  smplsCluster := [⟨[0], []⟩, ⟨[1], []⟩]
  nFoldsPerCluster := 2

/-- Scores of the clustered example. -/
def exampleClusterPsi : Fin 4 → ℝ := ![2, 0, -2, 0]

theorem exampleCluster_var (c : ℝ) :
    varEst (fun i => c * exampleClusterPsi i) (fun _ => 1) (some exampleCluster) = (c ^ 2 / 2, 2) := by
  have h : varEst exampleClusterPsi (fun _ => 1) (some exampleCluster) = (1 / 2, 2) := by
    have u : nUnique (fun i : Fin 4 => if (i : ℕ) < 2 then (0 : ℤ) else 1) = 2 := by decide
    have f0 : (univ.filter fun i : Fin 4 => (if (i : ℕ) < 2 then (0 : ℤ) else 1) = 0) = {0, 1} := by decide
    have f1 : (univ.filter fun i : Fin 4 => (if (i : ℕ) < 2 then (0 : ℤ) else 1) = 1) = {2, 3} := by decide
    simp only [varEst, varEstParts, exampleCluster, gammaOne, jOne, u, outerSum_eq_sq, List.map_cons,
      List.map_nil, List.sum_cons, List.sum_nil, f0, f1, List.zip_cons_cons, List.zip_nil_right,
      List.length_singleton]
    rw [Finset.sum_pair (by decide), Finset.sum_pair (by decide)]
    simp [exampleClusterPsi]
    norm_num
  rw [varEst_smul, h]
  simp only [Prod.mk.injEq, and_true]
  ring

/-- **C04 violated.** There is a framework whose standard errors are cluster-robust such that
`A + A` succeeds, keeps its cluster information, and reports a standard error different from the
cluster-robust one of its own scores (which `2 * A` does report). -/
theorem C04_violated : ∃ (A S D : FW 4 1), A.ClusterRobust ∧ FW.add A A = .ok S ∧ FW.smul 2 A = .ok D ∧
    S.cluster = A.cluster ∧ D.ClusterRobust ∧ ¬ S.ClusterRobust ∧
    S.blocks.map Block.psi = D.blocks.map Block.psi ∧
    S.blocks.map Block.se ≠ D.blocks.map Block.se := by
  let ci : ClusterInfo 4 1 := fun _ => exampleCluster
  let b : Block 4 1 :=
    { theta := 1
      se := Real.sqrt (1 / 2)
      allTheta := fun _ => 1
      allSe := fun _ => Real.sqrt (1 / 2)
      vsf := 2
      psi := fun i _ => exampleClusterPsi i }
  let A : FW 4 1 := { blocks := [b], cluster := some ci }
  have hsh : A.shapesOk := ⟨by intro s hs; simp [A] at hs, by intro h; simp [A] at h⟩
  have hadd := FW.bin_eq_ok (op := Block.add) hsh hsh ⟨fun _ => rfl, rfl⟩
    (by intro p hp; simp [A, b] at hp; subst hp; exact allclose_self _)
  have hmul : FW.smul 2 A = .ok { blocks := [b.smul 2], cluster := some ci } := by
    unfold FW.smul
    rw [FW.construct_eq_ok]
    · simp [FW.normBench, A]
    · exact ⟨by intro s hs; simp [A, FW.normBench] at hs, by intro h; simp [A, FW.normBench] at h⟩
    · intro bs hbs; simp [FW.normBench, A] at hbs
    · intro ns hns; simp at hns
  have v1 : varEst exampleClusterPsi (fun _ => 1) (some exampleCluster) = (1 / 2, 2) := by
    have := exampleCluster_var 1; simpa using this
  have v2 := exampleCluster_var 2
  have hsqrt : Real.sqrt (2 ^ 2 / 2) = 2 * Real.sqrt (1 / 2) := by
    rw [show ((2 : ℝ) ^ 2 / 2) = 2 ^ 2 * (1 / 2) by norm_num, Real.sqrt_mul (by norm_num),
      Real.sqrt_sq (by norm_num)]
  have hpsi2 : ∀ i, exampleClusterPsi i + exampleClusterPsi i = 2 * exampleClusterPsi i := fun i => by ring
  have hm : (mean fun i => (exampleClusterPsi i + exampleClusterPsi i) ^ 2) / 2 = 2 ^ 2 := by
    simp [mean, Fin.sum_univ_four, exampleClusterPsi]; norm_num
  have hSse : ∀ k, (b.add b).allSe k = 2 := by
    intro k
    simp only [Block.add, recomputedSe, b]
    rw [hm, Real.sqrt_sq (by norm_num)]
  have hne : (2 : ℝ) ≠ 2 * Real.sqrt (1 / 2) := by
    intro h
    have h1 : Real.sqrt (1 / 2) = 1 := by linarith
    rw [Real.sqrt_eq_one] at h1
    norm_num at h1
  refine ⟨A, _, _, ⟨ci, rfl, ?_⟩, hadd, hmul, rfl, ⟨ci, rfl, ?_⟩, ?_, ?_, ?_⟩
  · intro a ha k
    simp only [A, List.mem_singleton] at ha
    subst ha
    simp only [b, ci, v1]
  · intro a ha k
    simp only [List.mem_singleton] at ha
    subst ha
    simp only [b, ci, Block.smul, v2]
    exact hsqrt.symm
  · rintro ⟨ci', hci, h⟩
    simp only [A, Option.some.injEq] at hci
    subst hci
    have := h (b.add b) (by simp [A]) 0
    rw [hSse] at this
    simp only [b, Block.add, hpsi2] at this
    rw [v2, hsqrt] at this
    exact hne this
  · simp only [A, List.zipWith_cons_cons, List.zipWith_nil_right, List.map_cons, List.map_nil, Block.add,
      Block.smul, b, hpsi2]
  · simp only [A, List.zipWith_cons_cons, List.zipWith_nil_right, List.map_cons, List.map_nil, ne_eq,
      List.cons.injEq, and_true]
    have e1 : (b.add b).se = 2 := by
      have : (b.add b).se = aggSe (fun _ => 1 + 1) (b.add b).allSe (fun _ => 2) := by
        simp only [Block.add, b]
      rw [this, show (b.add b).allSe = fun _ => (2 : ℝ) from funext hSse]
      simp [aggSe, median_one]
    rw [e1]
    simp [Block.smul, b]

/-- **C04 (partial).** Multiplication by a nonnegative scalar keeps cluster-robust standard errors
cluster-robust, and sums and differences keep estimates and scores right; what fails is the standard
error of sums and differences (`C04_violated`). -/
theorem C04_smul_cluster_robust_partial (A R : FW n r) (c : ℝ) (hc : 0 ≤ c) (hA : A.ClusterRobust)
    (h : FW.smul c A = .ok R) : R.ClusterRobust := by
  obtain ⟨ci, hci, hse⟩ := hA
  obtain ⟨hbl, hcl, -⟩ := FW.smul_ok h
  refine ⟨ci, by rw [hcl, hci], ?_⟩
  intro b hb k
  rw [hbl] at hb
  obtain ⟨a, ha, rfl⟩ := List.mem_map.1 hb
  simp only [Block.smul]
  rw [varEst_smul, hse a ha k, Real.sqrt_mul (sq_nonneg c), Real.sqrt_sq hc]

/-! ## C05: concatenation -/

/-- **C05.** A successful `concat` stacks the parameters in order and changes nothing about them; bias
bounds survive iff every operand has them. -/
theorem C05_concat (As : List (FW n r)) (R : FW n r) (h : FW.concat As = .ok R) :
    R.blocks = As.flatMap FW.blocks ∧
      R.sens = (if ∀ A ∈ As, A.sens.isSome then some (As.flatMap fun A => A.sens.getD []) else none) ∧
      R.cluster = none := by
  obtain ⟨-, h1, h2, -, -, h3, h4⟩ := FW.concat_ok h
  refine ⟨by rw [h1, List.flatMap], ?_, h2⟩
  split_ifs with hs
  · rw [h3 hs, List.flatMap]
  · exact h4 hs

/-- **C05 (slices).** Parameter `j` of operand `i` is found, unchanged, at the position given by the
lengths of the operands before it. -/
theorem C05_concat_slice (As Bs : List (FW n r)) (A R : FW n r)
    (h : FW.concat (As ++ A :: Bs) = .ok R) (j : ℕ) (hj : j < A.blocks.length) :
    R.blocks[(As.map fun B => B.blocks.length).sum + j]? = some A.blocks[j] := by
  obtain ⟨h1, -⟩ := C05_concat _ _ h
  rw [h1]
  simp only [List.flatMap_append, List.flatMap_cons]
  have hl : (As.flatMap FW.blocks).length = (As.map fun B => B.blocks.length).sum :=
    List.length_flatMap ..
  rw [← hl, List.getElem?_append_right (by omega), Nat.add_sub_cancel_left,
    List.getElem?_append_left hj, List.getElem?_eq_getElem hj]

/-- **C05 (rejection).** `concat` raises `TypeError` on an empty list and, given consistent operands
that are all clustered, `NotImplementedError`; it never silently drops clustering. -/
theorem C05_concat_rejects (As : List (FW n r)) :
    FW.concat ([] : List (FW n r)) = .error .typeError ∧
    ((∃ A ∈ As, A.cluster.isSome) → ∀ R, FW.concat As ≠ .ok R) := by
  refine ⟨rfl, ?_⟩
  rintro ⟨A, hA, hc⟩ R h
  obtain ⟨-, -, -, -, h5, -⟩ := FW.concat_ok h
  rw [h5 A hA] at hc
  simp at hc

/-- Non-vacuity of C05: concatenating the two example frameworks succeeds. -/
example : ∃ R, FW.concat [exampleEnv true, exampleEnv false] = .ok R ∧ R.blocks.length = 2 := by
  have hpl : ∀ i, (exampleEnv i).Plain 2 := by
    intro i
    refine ⟨⟨?_, ?_⟩, rfl, ?_, ?_⟩
    · intro s hs; simp [exampleEnv] at hs
    · intro hs; simp [exampleEnv] at hs
    · intro bs hb; simp [exampleEnv] at hb
    · intro b hb; simp only [exampleEnv, List.mem_singleton] at hb; subst hb; rfl
  obtain ⟨R, h, -, hl⟩ := FW.concat_pair_plain (hpl true) (hpl false)
  exact ⟨R, h, by simpa [exampleEnv] using hl⟩

end DML
