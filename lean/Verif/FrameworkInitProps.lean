import Verif.FrameworkInit
import Verif.FrameworkStateProps
import Verif.FrameworkLawsProps

/-!
# The constructor of result objects (C65), `concat` of any operands (C05), programs with several objects (C06)
-/

namespace DML

/-! ## Specification -/

/-- A key is present and its value is an array of the given shape. -/
def HasShape (v : Option RawVal) (s : List ℕ) : Prop := ∃ a : NArr, v = some (.arr a) ∧ a.shape = s

/-- A key is present and its value is an array of the given shape without negative entries. -/
def HasShapeNonneg (v : Option RawVal) (s : List ℕ) : Prop :=
  ∃ a : NArr, v = some (.arr a) ∧ a.shape = s ∧ ∀ idx, List.Forall₂ (· < ·) idx s → 0 ≤ a.val idx

/-- The entry of the array stored under a key. -/
def entryOf : Option RawVal → List ℕ → ℝ
  | some (.arr a), idx => a.val idx
  | _, _ => 0

/-- A dictionary that describes `p` parameters with `n` observations and `r` repetitions. -/
structure GoodDict (d : RawDict) (n p r : ℕ) : Prop where
  thetas : HasShape d.thetas [p]
  ses : HasShape d.ses [p]
  allThetas : HasShape d.allThetas [p, r]
  allSes : HasShape d.allSes [p, r]
  vsf : HasShape d.vsf [p]
  psi : HasShape d.psi [n, p, r]
  cluster : d.isCluster = none ∨ d.isCluster = some (.bool false) ∨
    d.isCluster = some (.bool true) ∧ ∃ c, d.cluster = some (.dict c)
  sens : d.sens = none ∨ ∃ b pb s v, d.sens = some (.dict b pb s v) ∧ HasShape b [1, p, r] ∧ HasShape pb [n, p, r] ∧
    (s = none ∨ v = none ∨ HasShapeNonneg s [1, p, r] ∧ HasShapeNonneg v [1, p, r])
  names : d.names = none ∨ ∃ l : List String, d.names = some (.list (l.map some)) ∧ l.length = p

/-! ## Helpers -/

private theorem bindIff {α β : Type} {x : Except Exc α} {f : α → Except Exc β} {z : β} :
    (x >>= f) = .ok z ↔ ∃ a, x = .ok a ∧ f a = .ok z := by
  cases x with
  | error e => exact ⟨fun h => (by cases h), fun ⟨_, h, _⟩ => (by cases h)⟩
  | ok a => exact ⟨fun h => ⟨a, rfl, h⟩, fun ⟨_, h, h'⟩ => Except.ok.inj h ▸ h'⟩

private theorem bindUnitIff {β : Type} {x : Except Exc Unit} {f : Unit → Except Exc β} {z : β} :
    (x >>= f) = .ok z ↔ x = .ok () ∧ f () = .ok z := by
  rw [bindIff]
  exact ⟨fun ⟨_, h, h'⟩ => ⟨h, h'⟩, fun ⟨h, h'⟩ => ⟨(), h, h'⟩⟩

theorem checkShape_ok {v : RawVal} {s : List ℕ} : checkShape v s = .ok () ↔ ∃ a : NArr, v = .arr a ∧ a.shape = s := by
  cases v with
  | other => exact ⟨fun h => (by cases h), fun ⟨_, h, _⟩ => (by cases h)⟩
  | arr a =>
    have : checkShape (.arr a) s = if a.shape ≠ s then .error .valueError else .ok () := rfl
    rw [this]
    by_cases h : a.shape = s
    · rw [if_neg (not_not.2 h)]; exact ⟨fun _ => ⟨a, rfl, h⟩, fun _ => rfl⟩
    · rw [if_pos h]
      refine ⟨fun h' => (by cases h'), fun ⟨b, hb, hs⟩ => ?_⟩
      cases hb; exact absurd hs h

theorem checkShape_arr {a : NArr} {s : List ℕ} : checkShape (.arr a) s = .ok () ↔ a.shape = s := by
  rw [checkShape_ok]
  exact ⟨fun ⟨b, hb, hs⟩ => (by cases hb; exact hs), fun h => ⟨a, rfl, h⟩⟩

theorem required_ok {d : RawDict} {q : Required} : d.required = .ok q ↔
    d.thetas = some q.thetas ∧ d.ses = some q.ses ∧ d.allThetas = some q.allThetas ∧ d.allSes = some q.allSes ∧
      d.vsf = some q.vsf ∧ d.psi = some q.psi := by
  obtain ⟨a, b, c, e, f, g⟩ := q
  unfold RawDict.required
  cases d.thetas <;> cases d.ses <;> cases d.allThetas <;> cases d.allSes <;> cases d.vsf <;> cases d.psi <;> simp

theorem psiDims_ok {v : RawVal} {n p r : ℕ} : psiDims v = .ok (n, p, r) ↔
    ∃ (a : NArr) (t : List ℕ), v = .arr a ∧ a.shape = n :: p :: r :: t := by
  cases v with
  | other => exact ⟨fun h => (by cases h), fun ⟨_, _, h, _⟩ => (by cases h)⟩
  | arr a =>
    have : psiDims (.arr a) = match a.shape with
      | n :: p :: r :: _ => .ok (n, p, r)
      | _ => .error .indexError := rfl
    rw [this]
    constructor
    · intro h
      rcases hs : a.shape with _ | ⟨n', _ | ⟨p', _ | ⟨r', t⟩⟩⟩ <;> rw [hs] at h <;> try cases h
      exact ⟨a, t, rfl, hs⟩
    · rintro ⟨b, t, hb, hs⟩
      cases hb; rw [hs]

theorem initCluster_ok {n r : ℕ} {flag : Option PyVal} {c : Option RawCluster} :
    (∃ x, initCluster n r flag c = .ok x) ↔ flag = none ∨ flag = some (.bool false) ∨
      flag = some (.bool true) ∧ ∃ c', c = some (.dict c') := by
  cases flag with
  | none => simp [initCluster, clusterFlag, bind, Except.bind, pure, Except.pure]
  | some v =>
    cases v with
    | bool b =>
      cases b with
      | false => simp [initCluster, clusterFlag, checkBool, bind, Except.bind, pure, Except.pure]
      | true =>
        rcases c with _ | ⟨c⟩ | _ | _ <;>
          simp [initCluster, clusterFlag, checkBool, clusterContent, bind, Except.bind, pure, Except.pure]
    | _ => simp [initCluster, clusterFlag, checkBool, bind, Except.bind]

theorem checkNames_ok {p : ℕ} {v : RawNames} {l : List String} :
    checkNames p v = .ok l ↔ v = .list (l.map some) ∧ l.length = p := by
  cases v with
  | other => exact ⟨fun h => (by cases h), fun h => (by cases h.1)⟩
  | list m =>
    unfold checkNames
    dsimp only
    by_cases h1 : m.any Option.isNone = true
    · rw [if_pos h1]
      refine ⟨fun h => (by cases h), fun ⟨h, _⟩ => ?_⟩
      cases h
      simp at h1
    · rw [if_neg h1]
      have hm : m = (m.filterMap id).map some := by
        clear l
        induction m with
        | nil => rfl
        | cons x m ih =>
          simp only [List.any_cons, Bool.or_eq_true, not_or] at h1
          cases x with
          | none => simp at h1
          | some x => simpa using ih h1.2
      have hlen : m.length = (m.filterMap id).length := by
        conv_lhs => rw [hm]
        simp
      by_cases h2 : m.length ≠ p
      · rw [if_pos h2]
        refine ⟨fun h => (by cases h), fun ⟨h, h'⟩ => ?_⟩
        cases h
        simp at h2; omega
      · rw [if_neg h2]
        push Not at h2
        constructor
        · intro h
          cases h
          exact ⟨by rw [← hm], by omega⟩
        · rintro ⟨h, _⟩
          cases h
          simp

theorem initBench_ok {s v : Option RawVal} {t : Option (NArr × NArr)} : initBench s v = .ok t ↔
    ((s = none ∨ v = none) ∧ t = none) ∨
      ∃ a b, s = some (.arr a) ∧ v = some (.arr b) ∧ ¬ a.anyNeg ∧ ¬ b.anyNeg ∧ t = some (a, b) := by
  rcases s with _ | _ | s
  · simp [initBench, eq_comm]
  · rcases v with _ | _ | v
    · simp [initBench, eq_comm]
    · rename_i a b
      have : initBench (some (.arr a)) (some (.arr b)) =
        open Classical in if a.anyNeg ∨ b.anyNeg then .error .valueError else .ok (some (a, b)) := rfl
      rw [this]
      by_cases h : a.anyNeg ∨ b.anyNeg
      · rw [if_pos h]
        refine ⟨fun h' => (by cases h'), ?_⟩
        rintro (⟨h' | h', -⟩ | ⟨a', b', ha, hb, h1, h2, -⟩)
        · cases h'
        · cases h'
        · cases ha; cases hb; exact absurd h (not_or.2 ⟨h1, h2⟩)
      · rw [if_neg h]
        rw [not_or] at h
        constructor
        · intro h'; cases h'; exact .inr ⟨a, b, rfl, rfl, h.1, h.2, rfl⟩
        · rintro (⟨h' | h', -⟩ | ⟨a', b', ha, hb, -, -, rfl⟩)
          · cases h'
          · cases h'
          · cases ha; cases hb; rfl
    · simp [initBench, needArr, bind, Except.bind]
  · rcases v with _ | _ | v
    · simp [initBench, eq_comm]
    · simp [initBench, needArr, bind, Except.bind]
    · simp [initBench, needArr, bind, Except.bind]

theorem initSens_ok {x : Option RawSens} {t : Option (NArr × NArr × Option (NArr × NArr))} : initSens x = .ok t ↔
    (x = none ∧ t = none) ∨ ∃ b pb s v be, x = some (.dict (some (.arr b)) (some (.arr pb)) s v) ∧
      initBench s v = .ok be ∧ t = some (b, pb, be) := by
  rcases x with _ | ⟨b, pb, s, v⟩ | _
  · simp [initSens, eq_comm]
  · rcases b with _ | _ | _
    · simp [initSens]
    · rcases pb with _ | _ | _
      · simp [initSens]
      · rename_i b pb
        have : initSens (some (.dict (some (.arr b)) (some (.arr pb)) s v)) =
          (do let be ← initBench s v; return some (b, pb, be)) := rfl
        rw [this, bindIff]
        constructor
        · rintro ⟨be, h1, h2⟩
          cases h2
          exact .inr ⟨b, pb, s, v, be, rfl, h1, rfl⟩
        · rintro (⟨h, -⟩ | ⟨b', pb', s', v', be, h, h1, rfl⟩)
          · cases h
          · cases h; exact ⟨be, h1, rfl⟩
      · simp [initSens, needArr, bind, Except.bind]
    · rcases pb with _ | _ | _ <;> simp [initSens, needArr, bind, Except.bind]
  · simp [initSens]

theorem not_anyNeg_iff (a : NArr) : ¬ a.anyNeg ↔ ∀ idx, List.Forall₂ (· < ·) idx a.shape → 0 ≤ a.val idx := by
  unfold NArr.anyNeg NArr.InRange
  push Not
  exact Iff.rfl

theorem sens_ok {x : Option RawSens} {n p r : ℕ} :
    (∃ t, initSens x = .ok t ∧ checkSensShapes n p r t = .ok ()) ↔
      (x = none ∨ ∃ b pb s v, x = some (.dict b pb s v) ∧ HasShape b [1, p, r] ∧ HasShape pb [n, p, r] ∧
        (s = none ∨ v = none ∨ HasShapeNonneg s [1, p, r] ∧ HasShapeNonneg v [1, p, r])) := by
  constructor
  · rintro ⟨t, h, hs⟩
    rcases initSens_ok.1 h with ⟨rfl, -⟩ | ⟨b, pb, s, v, be, rfl, hb, rfl⟩
    · exact .inl rfl
    rcases initBench_ok.1 hb with ⟨hn, rfl⟩ | ⟨a, c, rfl, rfl, ha, hc, rfl⟩
    · simp only [checkSensShapes, bindUnitIff, checkShape_arr] at hs
      obtain ⟨h1, h2⟩ := hs
      exact .inr ⟨_, _, s, v, rfl, ⟨b, rfl, h1⟩, ⟨pb, rfl, h2⟩, hn.imp_right .inl⟩
    · simp only [checkSensShapes, bindUnitIff, checkShape_arr] at hs
      obtain ⟨h1, h2, h3, h4⟩ := hs
      rw [not_anyNeg_iff, h3] at ha
      rw [not_anyNeg_iff, h4] at hc
      exact .inr ⟨_, _, _, _, rfl, ⟨b, rfl, h1⟩, ⟨pb, rfl, h2⟩, .inr (.inr ⟨⟨a, rfl, h3, ha⟩, ⟨c, rfl, h4, hc⟩⟩)⟩
  · rintro (rfl | ⟨_, _, s, v, rfl, ⟨b, rfl, h1⟩, ⟨pb, rfl, h2⟩, h⟩)
    · exact ⟨none, rfl, rfl⟩
    · by_cases hn : s = none ∨ v = none
      · refine ⟨some (b, pb, none), initSens_ok.2 (.inr ⟨b, pb, s, v, none, rfl, initBench_ok.2 (.inl ⟨hn, rfl⟩), rfl⟩), ?_⟩
        simp only [checkSensShapes, bindUnitIff, checkShape_arr]
        exact ⟨h1, h2⟩
      · rw [not_or] at hn
        rcases h with h | h | ⟨⟨a, rfl, h3, ha⟩, ⟨c, rfl, h4, hc⟩⟩
        · exact absurd h hn.1
        · exact absurd h hn.2
        · refine ⟨some (b, pb, some (a, c)), initSens_ok.2 (.inr ⟨b, pb, _, _, _, rfl, initBench_ok.2 (.inr ⟨a, c, rfl, rfl,
            (not_anyNeg_iff a).2 (by rw [h3]; exact ha), (not_anyNeg_iff c).2 (by rw [h4]; exact hc), rfl⟩), rfl⟩), ?_⟩
          simp only [checkSensShapes, bindUnitIff, checkShape_arr]
          exact ⟨h1, h2, h3, h4⟩

theorem frameworkInit_ok {d : RawDict} {A : Framework} : frameworkInit (.dict d) = .ok A ↔
    ∃ q n p r cl s names, d.required = .ok q ∧ psiDims q.psi = .ok (n, p, r) ∧
      initCluster n r d.isCluster d.cluster = .ok cl ∧ initSens d.sens = .ok s ∧ checkShapes q n p r s = .ok () ∧
      initNames p d.names = .ok names ∧ A = ⟨n, r, assemble q n p r cl s names⟩ := by
  unfold frameworkInit
  simp only [bindIff]
  constructor
  · rintro ⟨q, h1, ⟨n, p, r⟩, h2, cl, h3, s, h4, _, h5, names, h6, h7⟩
    cases h7
    exact ⟨q, n, p, r, cl, s, names, h1, h2, h3, h4, h5, h6, rfl⟩
  · rintro ⟨q, n, p, r, cl, s, names, h1, h2, h3, h4, h5, h6, rfl⟩
    exact ⟨q, h1, (n, p, r), h2, cl, h3, s, h4, (), h5, names, h6, rfl⟩

theorem initNames_ok {p : ℕ} {v : Option RawNames} : (∃ x, initNames p v = .ok x) ↔
    v = none ∨ ∃ l : List String, v = some (.list (l.map some)) ∧ l.length = p := by
  cases v with
  | none => exact ⟨fun _ => .inl rfl, fun _ => ⟨none, rfl⟩⟩
  | some v =>
    have : initNames p (some v) = (do let l ← checkNames p v; return some l) := rfl
    simp only [this, bindIff, checkNames_ok]
    constructor
    · rintro ⟨_, l, ⟨rfl, h⟩, -⟩
      exact .inr ⟨l, rfl, h⟩
    · rintro (h | ⟨l, h, hl⟩)
      · cases h
      · cases h; exact ⟨_, l, ⟨rfl, hl⟩, rfl⟩

/-! ## C65: the constructor -/

/-- **C65 (what is accepted).** The constructor succeeds exactly for dictionaries that describe some numbers of
parameters, observations and repetitions: the six arrays are present and have the matching shapes, a complete cluster
dictionary is given if `is_cluster_data` is true, the bias bounds (and residual variances, if both are given) have the
matching shapes and the variances are non-negative, and the names are a list of one string per parameter. -/
theorem C65_accepts_iff (d : RawDict) :
    (∃ A, frameworkInit (.dict d) = .ok A) ↔ ∃ n p r, GoodDict d n p r := by
  constructor
  · rintro ⟨A, h⟩
    obtain ⟨q, n, p, r, cl, s, names, h1, h2, h3, h4, h5, h6, -⟩ := frameworkInit_ok.1 h
    obtain ⟨e1, e2, e3, e4, e5, e6⟩ := required_ok.1 h1
    simp only [checkShapes, bindUnitIff, checkShape_ok] at h5
    obtain ⟨⟨a1, b1, c1⟩, ⟨a2, b2, c2⟩, ⟨a3, b3, c3⟩, ⟨a4, b4, c4⟩, ⟨a5, b5, c5⟩, ⟨a6, b6, c6⟩, h7⟩ := h5
    refine ⟨n, p, r, ⟨a1, by rw [e1, b1], c1⟩, ⟨a2, by rw [e2, b2], c2⟩, ⟨a3, by rw [e3, b3], c3⟩, ⟨a4, by rw [e4, b4], c4⟩,
      ⟨a5, by rw [e5, b5], c5⟩, ⟨a6, by rw [e6, b6], c6⟩, initCluster_ok.1 ⟨cl, h3⟩, sens_ok.1 ⟨s, h4, h7⟩,
      initNames_ok.1 ⟨names, h6⟩⟩
  · rintro ⟨n, p, r, ⟨a1, b1, c1⟩, ⟨a2, b2, c2⟩, ⟨a3, b3, c3⟩, ⟨a4, b4, c4⟩, ⟨a5, b5, c5⟩, ⟨a6, b6, c6⟩, hc, hs, hn⟩
    obtain ⟨cl, h3⟩ := initCluster_ok.2 hc
    obtain ⟨s, h4, h7⟩ := sens_ok.2 hs
    obtain ⟨names, h6⟩ := initNames_ok.2 hn
    refine ⟨_, frameworkInit_ok.2 ⟨⟨.arr a1, .arr a2, .arr a3, .arr a4, .arr a5, .arr a6⟩, n, p, r, cl, s, names,
      required_ok.2 ⟨b1, b2, b3, b4, b5, b6⟩, psiDims_ok.2 ⟨a6, [], rfl, c6⟩, h3, h4, ?_, h6, rfl⟩⟩
    simp only [checkShapes, bindUnitIff, checkShape_arr]
    exact ⟨c1, c2, c3, c4, c5, c6, h7⟩

/-- **C65 (what the object reports).** For an accepted dictionary: the numbers of observations and repetitions are those
of the arrays; there are `p` parameters, and everything stored for parameter `i` is slice `i` of the array given for it;
the object is clustered exactly if the flag says so; bias bounds are available exactly if given, residual variances
exactly if both are given; the names are those given.  The object passes its own consistency checks. -/
theorem C65_content {d : RawDict} {n p r : ℕ} (hd : GoodDict d n p r) : ∃ F : FW n r,
    frameworkInit (.dict d) = .ok ⟨n, r, F⟩ ∧ F.blocks.length = p ∧
    (∀ i (hi : i < F.blocks.length), F.blocks[i].theta = entryOf d.thetas [i] ∧ F.blocks[i].se = entryOf d.ses [i] ∧
      (∀ k, F.blocks[i].allTheta k = entryOf d.allThetas [i, k]) ∧ (∀ k, F.blocks[i].allSe k = entryOf d.allSes [i, k]) ∧
      F.blocks[i].vsf = entryOf d.vsf [i] ∧ ∀ j k, F.blocks[i].psi j k = entryOf d.psi [j, i, k]) ∧
    (F.cluster.isSome = true ↔ d.isCluster = some (.bool true)) ∧
    (∀ c, d.isCluster = some (.bool true) → d.cluster = some (.dict c) → F.cluster = some (c n r)) ∧
    (d.sens = none → F.sens = none ∧ F.bench = none) ∧
    (∀ b pb s v, d.sens = some (.dict b pb s v) → ∃ es, F.sens = some es ∧ es.length = p ∧
      (∀ i (hi : i < es.length), (∀ k, es[i].maxBias k = entryOf b [0, i, k]) ∧
        ∀ j k, es[i].psiMaxBias j k = entryOf pb [j, i, k]) ∧
      (s = none ∨ v = none → F.bench = none) ∧
      (s ≠ none → v ≠ none → ∃ bs, F.bench = some bs ∧ bs.length = p ∧ ∀ i (hi : i < bs.length),
        (∀ k, bs[i].sigma2 k = entryOf s [0, i, k]) ∧ ∀ k, bs[i].nu2 k = entryOf v [0, i, k])) ∧
    (d.names = none → F.names = none) ∧ (∀ l, d.names = some (.list (l.map some)) → F.names = some l) ∧
    F.construct = .ok F := by
  obtain ⟨A, hA⟩ := (C65_accepts_iff d).2 ⟨n, p, r, hd⟩
  obtain ⟨q, n', p', r', cl, s, names, h1, h2, h3, h4, h5, h6, rfl⟩ := frameworkInit_ok.1 hA
  obtain ⟨e1, e2, e3, e4, e5, e6⟩ := required_ok.1 h1
  obtain ⟨a6, t, hq6, hs6⟩ := psiDims_ok.1 h2
  obtain ⟨a6', b6', c6'⟩ := hd.psi
  rw [e6, hq6] at b6'
  cases b6'
  rw [c6'] at hs6
  cases hs6
  obtain ⟨a1, b1, -⟩ := hd.thetas
  obtain ⟨a2, b2, -⟩ := hd.ses
  obtain ⟨a3, b3, -⟩ := hd.allThetas
  obtain ⟨a4, b4, -⟩ := hd.allSes
  obtain ⟨a5, b5, -⟩ := hd.vsf
  obtain ⟨q1, q2, q3, q4, q5, q6⟩ := q
  rw [e1] at b1; rw [e2] at b2; rw [e3] at b3; rw [e4] at b4; rw [e5] at b5
  simp only at b1 b2 b3 b4 b5 hq6
  cases b1; cases b2; cases b3; cases b4; cases b5; cases hq6
  refine ⟨_, hA, by simp [assemble], ?_, ?_, ?_, ?_, ?_, ?_, ?_, ?_⟩
  · intro i hi
    simp [assemble, Required.block, RawVal.at, e1, e2, e3, e4, e5, e6, entryOf]
  · rcases hd.cluster with hc | hc | ⟨hc, c, hc'⟩
    · rw [hc] at h3 ⊢
      simp only [initCluster, clusterFlag, bind, Except.bind, pure, Except.pure] at h3
      cases h3
      simp [assemble]
    · rw [hc] at h3 ⊢
      simp only [initCluster, clusterFlag, checkBool, bind, Except.bind, pure, Except.pure] at h3
      cases h3
      simp [assemble]
    · rw [hc, hc'] at h3
      simp only [initCluster, clusterFlag, checkBool, clusterContent, bind, Except.bind, pure, Except.pure] at h3
      cases h3
      simp [assemble, hc]
  · intro c hc hc'
    rw [hc, hc'] at h3
    simp only [initCluster, clusterFlag, checkBool, clusterContent, bind, Except.bind, pure, Except.pure] at h3
    cases h3
    simp [assemble]
  · intro hs
    rcases initSens_ok.1 h4 with ⟨-, rfl⟩ | ⟨b, pb, s', v, be, hx, -, -⟩
    · simp [assemble]
    · rw [hs] at hx; cases hx
  · intro b pb s' v hs
    rcases initSens_ok.1 h4 with ⟨hx, rfl⟩ | ⟨b', pb', s'', v', be, hx, hb, rfl⟩
    · rw [hs] at hx; cases hx
    · rw [hs] at hx; cases hx
      refine ⟨_, rfl, by simp, ?_, ?_, ?_⟩
      · intro i hi
        simp [sensSlice, entryOf]
      · intro hn
        rcases initBench_ok.1 hb with ⟨-, rfl⟩ | ⟨a, c, hs', hv', -⟩
        · simp [assemble]
        · rcases hn with rfl | rfl
          · cases hs'
          · cases hv'
      · intro hs' hv'
        rcases initBench_ok.1 hb with ⟨hn, -⟩ | ⟨a, c, rfl, rfl, -, -, rfl⟩
        · rcases hn with hn | hn
          · exact absurd hn hs'
          · exact absurd hn hv'
        · refine ⟨_, rfl, by simp, ?_⟩
          intro i hi
          simp [benchSlice, entryOf]
  · intro hn
    rw [hn] at h6
    cases h6
    rfl
  · intro l hl
    rw [hl] at h6
    obtain ⟨l', h7, h8⟩ := bindIff.1 h6
    cases h8
    obtain ⟨h9, -⟩ := checkNames_ok.1 h7
    cases h9' : l.map some with
    | nil => rw [h9'] at h9; simp at h9 h9'; rw [h9, h9']; rfl
    | cons x xs =>
      have := RawNames.list.inj h9
      rw [List.map_inj_right (fun _ _ h => Option.some.inj h)] at this
      rw [this]; rfl
  · have hsh : (assemble ⟨.arr a1, .arr a2, .arr a3, .arr a4, .arr a5, .arr a6⟩ n p r cl s names).shapesOk := by
      refine ⟨?_, ?_⟩
      · intro es he
        simp only [assemble, Option.mem_def, Option.map_eq_some_iff] at he
        obtain ⟨t, -, rfl⟩ := he
        simp [assemble]
      · intro _ bs hb
        simp only [assemble, Option.mem_def, Option.map_eq_some_iff] at hb
        obtain ⟨t, -, rfl⟩ := hb
        simp [assemble]
    have hnb : (assemble ⟨.arr a1, .arr a2, .arr a3, .arr a4, .arr a5, .arr a6⟩ n p r cl s names).normBench =
        assemble ⟨.arr a1, .arr a2, .arr a3, .arr a4, .arr a5, .arr a6⟩ n p r cl s names := by
      cases s <;> simp [FW.normBench, assemble]
    rw [FW.construct_eq_ok (by rw [hnb]; exact hsh), hnb]
    · rw [hnb]
      intro bs hb b hbb
      simp only [assemble, Option.mem_def, Option.map_eq_some_iff, Option.bind_eq_some_iff] at hb
      obtain ⟨⟨x, y⟩, ⟨⟨u, w, z⟩, hs, hz⟩, rfl⟩ := hb
      rcases initSens_ok.1 h4 with ⟨-, rfl⟩ | ⟨b', pb', s'', v', be, hx, hb', rfl⟩
      · cases hs
      · cases hs
        simp only at hz
        subst hz
        rcases initBench_ok.1 hb' with ⟨-, h⟩ | ⟨a, c, rfl, rfl, ha, hc, h⟩
        · cases h
        · cases h
          simp only [checkShapes, checkSensShapes, bindUnitIff, checkShape_arr] at h5
          obtain ⟨-, -, -, -, -, -, -, -, h3', h4'⟩ := h5
          obtain ⟨i, hi, rfl⟩ := List.mem_map.1 hbb
          have hi := List.mem_range.1 hi
          refine ⟨fun k => (not_anyNeg_iff x).1 ha _ ?_, fun k => (not_anyNeg_iff y).1 hc _ ?_⟩
          · rw [h3']; exact .cons (by omega) (.cons hi (.cons k.2 .nil))
          · rw [h4']; exact .cons (by omega) (.cons hi (.cons k.2 .nil))
    · intro ns hns
      simp only [assemble, Option.mem_def] at hns
      subst hns
      cases hdn : d.names with
      | none => rw [hdn] at h6; cases h6
      | some v =>
        rw [hdn] at h6
        obtain ⟨l', h7, h8⟩ := bindIff.1 h6
        cases h8
        simpa [assemble] using (checkNames_ok.1 h7).2

/-- **C65 (errors).** Anything but a dictionary is a `TypeError`, a missing array a `ValueError`. -/
theorem C65_rejects : frameworkInit .other = .error .typeError ∧
    ∀ d : RawDict, (d.thetas = none ∨ d.ses = none ∨ d.allThetas = none ∨ d.allSes = none ∨ d.vsf = none ∨ d.psi = none) →
      frameworkInit (.dict d) = .error .valueError := by
  refine ⟨rfl, fun d h => ?_⟩
  have hr : d.required = .error .valueError := by
    unfold RawDict.required
    rcases h with h | h | h | h | h | h <;> rw [h]
    all_goals first
      | rfl
      | (cases d.thetas <;> first | rfl | skip)
    all_goals first
      | rfl
      | (cases d.ses <;> first | rfl | skip)
    all_goals first
      | rfl
      | (cases d.allThetas <;> first | rfl | skip)
    all_goals first
      | rfl
      | (cases d.allSes <;> first | rfl | skip)
    all_goals first
      | rfl
      | (cases d.vsf <;> rfl)
  simp only [frameworkInit, hr, bind, Except.bind]

variable {n r : ℕ}

theorem rowsArr_val {α : Type} (l : List α) (f : α → Fin r → ℝ) (i : ℕ) (hi : i < l.length) (k : Fin r) :
    (rowsArr l f []).val [i, k] = f l[i] k ∧ (rowsArr l f [1]).val [0, i, k] = f l[i] k := by
  constructor <;> simp [rowsArr, entryFin, List.getElem?_eq_getElem hi]

theorem cubeArr_val {α : Type} (l : List α) (f : α → Fin n → Fin r → ℝ) (i : ℕ) (hi : i < l.length) (j : Fin n) (k : Fin r) :
    (cubeArr l f).val [j, i, k] = f l[i] j k := by
  simp [cubeArr, entryFin, List.getElem?_eq_getElem hi]

theorem colArr_val {α : Type} (l : List α) (f : α → ℝ) (i : ℕ) (hi : i < l.length) : (colArr l f).val [i] = f l[i] := by
  simp [colArr, List.getElem?_eq_getElem hi]

theorem rows_nonneg {α : Type} (l : List α) (f : α → Fin r → ℝ) : (∀ idx, List.Forall₂ (· < ·) idx [1, l.length, r] →
    0 ≤ (rowsArr l f [1]).val idx) ↔ ∀ x ∈ l, ∀ k, 0 ≤ f x k := by
  constructor
  · intro h x hx k
    obtain ⟨i, hi, rfl⟩ := List.mem_iff_getElem.1 hx
    rw [← (rowsArr_val l f i hi k).2]
    exact h _ (.cons (by omega) (.cons hi (.cons k.2 .nil)))
  · intro h idx hidx
    cases hidx with
    | cons h1 h2 =>
      cases h2 with
      | cons h3 h4 =>
        cases h4 with
        | cons h5 h6 =>
          cases h6
          rename_i a b c
          have := h _ (List.getElem_mem h3) ⟨c, h5⟩
          simpa [rowsArr, entryFin, List.getElem?_eq_getElem h3, h5] using this

theorem goodDict_toDict (A : FW n r) : GoodDict A.toDict n A.blocks.length r ↔
    A.normBench.shapesOk ∧ (∀ bs ∈ A.normBench.bench, ∀ b ∈ bs, b.ok) ∧ ∀ ns ∈ A.names, ns.length = A.blocks.length := by
  constructor
  · intro h
    have hs := h.sens
    have hn := h.names
    simp only [FW.toDict] at hs hn
    refine ⟨⟨?_, ?_⟩, ?_, ?_⟩
    · intro es he
      simp only [FW.normBench, Option.mem_def] at he ⊢
      rw [he] at hs
      rcases hs with hs | ⟨b, pb, s, v, hs, ⟨a, rfl, ha⟩, -, -⟩
      · cases hs
      · simp only [Option.map_some, Option.some.injEq, RawSens.dict.injEq, RawVal.arr.injEq] at hs
        rw [← hs.1] at ha
        simpa [rowsArr] using ha
    · intro _ bs hb
      simp only [FW.normBench, Option.mem_def] at hb ⊢
      split_ifs at hb with hsome
      obtain ⟨es, he⟩ := Option.isSome_iff_exists.1 hsome
      rw [he, hb] at hs
      rcases hs with hs | ⟨b, pb, s, v, hs, -, -, hh⟩
      · cases hs
      · simp only [Option.map_some, Option.some.injEq, RawSens.dict.injEq] at hs
        obtain ⟨-, -, rfl, rfl⟩ := hs
        rcases hh with hh | hh | ⟨⟨a, ha, hsh, -⟩, -⟩
        · cases hh
        · cases hh
        · cases ha
          simpa [rowsArr] using hsh
    · intro bs hb b hbb
      simp only [FW.normBench, Option.mem_def] at hb
      split_ifs at hb with hsome
      obtain ⟨es, he⟩ := Option.isSome_iff_exists.1 hsome
      rw [he, hb] at hs
      rcases hs with hs | ⟨b', pb, s, v, hs, -, -, hh⟩
      · cases hs
      · simp only [Option.map_some, Option.some.injEq, RawSens.dict.injEq] at hs
        obtain ⟨-, -, rfl, rfl⟩ := hs
        rcases hh with hh | hh | ⟨⟨a, ha, hsh, h1⟩, ⟨a', ha', hsh', h2⟩⟩
        · cases hh
        · cases hh
        · cases ha; cases ha'
          have hl : bs.length = A.blocks.length := by simpa [rowsArr] using hsh
          rw [← hl] at h1 h2
          exact ⟨(rows_nonneg bs _).1 h1 b hbb, (rows_nonneg bs _).1 h2 b hbb⟩
    · intro ns hns
      rw [Option.mem_def] at hns
      rw [hns] at hn
      rcases hn with hn | ⟨l, hl, hll⟩
      · cases hn
      · simp only [Option.map_some, Option.some.injEq, RawNames.list.injEq] at hl
        have := congrArg List.length hl
        simp only [List.length_map] at this
        omega
  · rintro ⟨⟨h1, h2⟩, h3, h4⟩
    refine ⟨⟨_, rfl, rfl⟩, ⟨_, rfl, rfl⟩, ⟨_, rfl, rfl⟩, ⟨_, rfl, rfl⟩, ⟨_, rfl, rfl⟩, ⟨_, rfl, rfl⟩, ?_, ?_, ?_⟩
    · cases hc : A.cluster with
      | none => exact .inr (.inl (by simp [FW.toDict, hc]))
      | some c => exact .inr (.inr ⟨by simp [FW.toDict, hc], clusterFor c, by simp [FW.toDict, hc]⟩)
    · cases he : A.sens with
      | none => exact .inl (by simp [FW.toDict, he])
      | some es =>
        have hl : es.length = A.blocks.length := h1 es (by simp [FW.normBench, he])
        have hdict : A.toDict.sens = some (.dict (some (.arr (rowsArr es Sens.maxBias [1])))
            (some (.arr (cubeArr es Sens.psiMaxBias))) (A.bench.map fun bs => .arr (rowsArr bs Bench.sigma2 [1]))
            (A.bench.map fun bs => .arr (rowsArr bs Bench.nu2 [1]))) := by
          simp only [FW.toDict, he, Option.map_some]
        refine .inr ⟨_, _, _, _, hdict, ⟨_, rfl, by simp [rowsArr, hl]⟩,
          ⟨_, rfl, by simp [cubeArr, hl]⟩, ?_⟩
        cases hb : A.bench with
        | none => exact .inl rfl
        | some bs =>
          have hmem : bs ∈ A.normBench.bench := by simp [FW.normBench, he, hb]
          have hbl : bs.length = A.blocks.length := h2 (by simp [FW.normBench, he]) bs hmem
          refine .inr (.inr ⟨⟨_, rfl, by simp [rowsArr, hbl], ?_⟩, ⟨_, rfl, by simp [rowsArr, hbl], ?_⟩⟩)
          · rw [← hbl]; exact (rows_nonneg bs _).2 fun b hb => (h3 bs hmem b hb).1
          · rw [← hbl]; exact (rows_nonneg bs _).2 fun b hb => (h3 bs hmem b hb).2
    · cases hn : A.names with
      | none => exact .inl (by simp [FW.toDict, hn])
      | some l => exact .inr ⟨l, by simp [FW.toDict, hn], h4 l (by simp [hn])⟩

/-- **C65 (the operations build what their dictionaries say).** For the dictionaries built by the arithmetic operations
and `concat`, the constructor on arrays succeeds exactly when the constructor on slices (`FW.construct`, which the
theorems about arithmetic use) does, with the same object. -/
theorem C65_roundtrip (A : FW n r) (X : Framework) :
    frameworkInit (.dict A.toDict) = .ok X ↔ ∃ F, A.construct = .ok F ∧ X = ⟨n, r, F⟩ := by
  have key : ∀ F, A.construct = .ok F → frameworkInit (.dict A.toDict) = .ok ⟨n, r, F⟩ := by
    intro F hF
    obtain ⟨rfl, hs, hb, hn⟩ := FW.construct_ok hF
    have hg : GoodDict A.toDict n A.blocks.length r := (goodDict_toDict A).2 ⟨hs, hb, hn⟩
    obtain ⟨F, h1, h2, h3, h4, h5, h6, h7, h8, h9, -⟩ := C65_content hg
    rw [h1]
    suffices F = A.normBench by rw [this]
    apply FW.ext
    · apply List.ext_getElem h2
      intro i hi hi'
      change i < A.blocks.length at hi'
      obtain ⟨a1, a2, a3, a4, a5, a6⟩ := h3 i hi
      apply Block.ext
      · rw [a1]; exact colArr_val _ _ _ hi'
      · rw [a2]; exact colArr_val _ _ _ hi'
      · funext k; rw [a3]; exact (rowsArr_val _ _ _ hi' k).1
      · funext k; rw [a4]; exact (rowsArr_val _ _ _ hi' k).1
      · rw [a5]; exact colArr_val _ _ _ hi'
      · funext j k; rw [a6]; exact cubeArr_val _ _ _ hi' j k
    · cases hc : A.cluster with
      | none =>
        have : ¬ F.cluster.isSome = true := by rw [h4]; simp [FW.toDict, hc]
        simp only [FW.normBench, hc]
        simpa using this
      | some c =>
        rw [h5 (clusterFor c) (by simp [FW.toDict, hc]) (by simp [FW.toDict, hc])]
        simp [FW.normBench, hc, clusterFor]
    · cases he : A.sens with
      | none => rw [(h6 (by simp [FW.toDict, he])).1]; simp [FW.normBench, he]
      | some es =>
        obtain ⟨es', e1, e2, e3, -⟩ := h7 _ _ _ _ (show A.toDict.sens = some (.dict _ _ _ _) by
          simp only [FW.toDict, he, Option.map_some]; rfl)
        rw [e1]
        have hl : es.length = A.blocks.length := hs.1 es (by simp [FW.normBench, he])
        simp only [FW.normBench, he, Option.some.injEq]
        apply List.ext_getElem (by omega)
        intro i hi hi'
        apply Sens.ext
        · funext k; rw [(e3 i hi).1]; exact (rowsArr_val _ _ _ hi' k).2
        · funext j k; rw [(e3 i hi).2]; exact cubeArr_val _ _ _ hi' j k
    · cases he : A.sens with
      | none => rw [(h6 (by simp [FW.toDict, he])).2]; simp [FW.normBench, he]
      | some es =>
        obtain ⟨es', -, -, -, e4, e5⟩ := h7 _ _ _ _ (show A.toDict.sens = some (.dict _ _ _ _) by
          simp only [FW.toDict, he, Option.map_some]; rfl)
        cases hbn : A.bench with
        | none => rw [e4 (.inl (by rw [hbn]; rfl))]; simp [FW.normBench, hbn]
        | some bs =>
          obtain ⟨bs', f1, f2, f3⟩ := e5 (by rw [hbn]; simp) (by rw [hbn]; simp)
          rw [f1]
          have hl : bs.length = A.blocks.length := hs.2 (by simp [FW.normBench, he]) bs (by simp [FW.normBench, he, hbn])
          simp only [FW.normBench, he, hbn, Option.isSome_some, if_true, Option.some.injEq]
          apply List.ext_getElem (by omega)
          intro i hi hi'
          apply Bench.ext
          · funext k; rw [(f3 i hi).1, hbn]; exact (rowsArr_val _ _ _ hi' k).2
          · funext k; rw [(f3 i hi).2, hbn]; exact (rowsArr_val _ _ _ hi' k).2
    · cases hnm : A.names with
      | none => rw [h8 (by simp [FW.toDict, hnm])]; simp [FW.normBench, hnm]
      | some l => rw [h9 l (by simp [FW.toDict, hnm])]; simp [FW.normBench, hnm]
  constructor
  · intro h
    obtain ⟨n', p', r', hg⟩ := (C65_accepts_iff _).1 ⟨X, h⟩
    obtain ⟨a, ha, hsh⟩ := hg.psi
    simp only [FW.toDict, Option.some.injEq, RawVal.arr.injEq] at ha
    subst ha
    simp only [cubeArr, List.cons.injEq, and_true] at hsh
    obtain ⟨rfl, rfl, rfl⟩ := hsh
    obtain ⟨h1, h2, h3⟩ := (goodDict_toDict A).1 hg
    have hc := FW.construct_eq_ok h1 h2 h3
    refine ⟨_, hc, ?_⟩
    have := key _ hc
    rw [h] at this
    exact Except.ok.inj this
  · rintro ⟨F, hF, rfl⟩
    exact key F hF

/-- Non-vacuity of C65: a dictionary for two parameters, three observations and two repetitions, clustered, with bias
bounds, residual variances and names; the constructor accepts it. -/
example (c : ∀ n r : ℕ, ClusterInfo n r) :
    let arr (s : List ℕ) : Option RawVal := some (.arr ⟨s, fun idx => (idx.sum : ℝ)⟩)
    GoodDict
      { thetas := arr [2]
        ses := arr [2]
        allThetas := arr [2, 2]
        allSes := arr [2, 2]
        vsf := arr [2]
        psi := arr [3, 2, 2]
        isCluster := some (.bool true)
        cluster := some (.dict c)
        sens := some (.dict (arr [1, 2, 2]) (arr [3, 2, 2]) (arr [1, 2, 2]) (arr [1, 2, 2]))
        names := some (.list [some "d1", some "d2"]) } 3 2 2 := by
  intro arr
  have h : ∀ s, HasShape (arr s) s := fun s => ⟨_, rfl, rfl⟩
  have h' : ∀ s, HasShapeNonneg (arr s) s := fun s => ⟨_, rfl, rfl, fun idx _ => Nat.cast_nonneg _⟩
  exact ⟨h _, h _, h _, h _, h _, h _, .inr (.inr ⟨rfl, c, rfl⟩),
    .inr ⟨_, _, _, _, rfl, h _, h _, .inr (.inr ⟨h' _, h' _⟩)⟩, .inr ⟨["d1", "d2"], rfl, rfl⟩⟩

end DML
