import Verif.RddProps

/-!
# C64: construction of RDFlex objects
-/

namespace DML

open Finset

variable {n r : ℕ}

/-! ## Specification -/

/-- The documented kernels, by (case-folded) name. -/
def NamedKernel (name : String) (K : Kernel) : Prop :=
  (name = "uniform" ∧ ∀ x h, K x h = if |x| ≤ h then 1 else 0) ∨
  (name = "triangular" ∧ ∀ x h, K x h = max 0 ((h - |x|) / h)) ∨
  (name = "epanechnikov" ∧ ∀ x h, K x h = if |x| < h then 0.75 * (1 - (x / h) ^ 2) else 0)

/-- The bandwidth in use: the given one, otherwise the selected one. -/
def FirstBandwidth (given : PyVal) (selected h : ℝ) : Prop := (given = .none ∧ h = selected) ∨ given = .float h

/-- The first stage specification by name. -/
def NamedSpec (v : PyVal) (s : FsSpec) : Prop :=
  (v = .str "cutoff" ∧ s = .cutoff) ∨ (v = .str "cutoff and score" ∧ s = .cutoffScore) ∨
  (v = .str "interacted cutoff and score" ∧ s = .interacted)

/-- Data and settings are suitable, with cutoff `c`, first bandwidth `h`, specification `s` and kernel `K`. -/
structure RdSuitable (casefold : String → String) (bw : ℝ) (a : RdInput n) (c h : ℝ) (s : FsSpec) (K : Kernel) : Prop where
  score : a.hasScore = true
  continuous : a.sType = .float ∧ ∃ i, ∀ z : ℤ, a.data.s i ≠ z
  cutoff : a.cutoff.number = some c
  range : (∃ i, a.data.s i ≤ c) ∧ ∃ i, c ≤ a.data.s i
  treatment : a.nTreat = 1 ∧ ∀ i, a.data.d i = 0 ∨ a.data.d i = 1
  noInstrument : a.hasZ = false
  outcome : a.gClassifier = true → a.binaryOutcome = true
  fuzzy : a.fuzzy = true → a.ml_m.isSome
  folds : 2 ≤ a.nFolds
  bandwidth : FirstBandwidth a.hFs bw h
  spec : NamedSpec a.fsSpec s
  kernel : ∃ name, a.fsKernel = .str name ∧ NamedKernel (casefold name) K
  /-- observations with positive weight on both sides of the cutoff -/
  sides : (∃ i, a.data.s i < c ∧ 0 < K (a.data.s i - c) h) ∧ ∃ i, c < a.data.s i ∧ 0 < K (a.data.s i - c) h

/-! ## The checks -/

theorem rdCheckData_iff {a : RdInput n} {c : ℝ} : rdCheckData a = .ok c ↔
    a.hasScore = true ∧ (a.sType = .float ∧ ∃ i, ∀ z : ℤ, a.data.s i ≠ z) ∧ a.cutoff.number = some c ∧
    ((∃ i, a.data.s i ≤ c) ∧ ∃ i, c ≤ a.data.s i) ∧ (a.nTreat = 1 ∧ ∀ i, a.data.d i = 0 ∨ a.data.d i = 1) ∧ a.hasZ = false := by
  unfold rdCheckData
  by_cases h1 : a.hasScore = true
  swap
  · rw [if_pos (by simp [h1])]
    exact ⟨fun h => (by cases h), fun h => absurd h.1 h1⟩
  rw [if_neg (by simp [h1])]
  by_cases h2 : continuousTarget a.sType a.data.s
  swap
  · rw [if_pos h2]
    exact ⟨fun h => (by cases h), fun h => absurd h.2.1 h2⟩
  rw [if_neg (not_not.2 h2)]
  cases hc : a.cutoff.number with
  | none => exact ⟨fun h => (by cases h), fun h => (by cases h.2.2.1)⟩
  | some c' =>
    dsimp only
    by_cases h3 : (∃ i, a.data.s i ≤ c') ∧ ∃ i, c' ≤ a.data.s i
    swap
    · rw [if_pos h3]
      refine ⟨fun h => (by cases h), fun h => ?_⟩
      obtain rfl := Option.some.inj h.2.2.1
      exact absurd h.2.2.2.1 h3
    rw [if_neg (not_not.2 h3)]
    by_cases h4 : a.nTreat = 1 ∧ ∀ i, a.data.d i = 0 ∨ a.data.d i = 1
    swap
    · rw [if_pos h4]
      exact ⟨fun h => (by cases h), fun h => absurd h.2.2.2.2.1 h4⟩
    rw [if_neg (not_not.2 h4)]
    cases h5 : a.hasZ
    · rw [if_neg (by simp)]
      constructor
      · intro h
        obtain rfl := Except.ok.inj h
        exact ⟨h1, h2, rfl, h3, h4, rfl⟩
      · intro h
        rw [Option.some.inj h.2.2.1]
    · rw [if_pos rfl]
      exact ⟨fun h => (by cases h), fun h => (by cases h.2.2.2.2.2)⟩

theorem rdCheckLearners_iff {a : RdInput n} : (∃ lm, rdCheckLearners a = .ok lm) ↔
    (a.gClassifier = true → a.binaryOutcome = true) ∧ (a.fuzzy = true → a.ml_m.isSome) := by
  unfold rdCheckLearners
  by_cases h1 : a.gClassifier = true ∧ ¬ a.binaryOutcome = true
  · rw [if_pos h1]
    exact ⟨fun ⟨_, h⟩ => (by cases h), fun h => absurd (h.1 h1.1) h1.2⟩
  · rw [if_neg h1]
    have h1' : a.gClassifier = true → a.binaryOutcome = true := fun h => by
      by_contra hb
      exact h1 ⟨h, hb⟩
    dsimp only
    by_cases h2 : a.fuzzy = true
    · rw [if_pos h2]
      cases hm : a.ml_m with
      | none => exact ⟨fun ⟨_, h⟩ => (by cases h), fun h => (by simpa using h.2 h2)⟩
      | some L => exact ⟨fun _ => ⟨h1', fun _ => rfl⟩, fun _ => ⟨_, rfl⟩⟩
    · rw [if_neg h2]
      exact ⟨fun _ => ⟨h1', fun h => absurd h h2⟩, fun _ => ⟨_, rfl⟩⟩

theorem rdBandwidth_iff {bw h : ℝ} {v : PyVal} : rdBandwidth bw v = .ok h ↔ FirstBandwidth v bw h := by
  unfold rdBandwidth FirstBandwidth
  cases v <;> simp [eq_comm]

theorem checkFsSpec_iff {v : PyVal} {s : FsSpec} : checkFsSpec v = .ok s ↔ NamedSpec v s := by
  unfold NamedSpec
  cases v with
  | str x =>
    unfold checkFsSpec
    dsimp only
    by_cases h1 : x = "cutoff"
    · subst h1
      simp [eq_comm]
    rw [if_neg h1]
    by_cases h2 : x = "cutoff and score"
    · subst h2
      simp [eq_comm]
    rw [if_neg h2]
    by_cases h3 : x = "interacted cutoff and score"
    · subst h3
      simp [eq_comm]
    rw [if_neg h3]
    simp [h1, h2, h3]
  | _ => simp [checkFsSpec]

theorem checkKernel_iff {casefold : String → String} {name : String} {K : Kernel} :
    (∃ q, checkKernel casefold (.str name) = .ok (K, q)) ↔ NamedKernel (casefold name) K := by
  have ext : ∀ L : Kernel, (L = K) ↔ ∀ x h, K x h = L x h :=
    fun L => ⟨fun h => by rw [h]; exact fun _ _ => rfl, fun h => funext fun x => funext fun y => (h x y).symm⟩
  unfold checkKernel NamedKernel
  dsimp only
  by_cases h1 : casefold name = "uniform"
  · rw [if_pos h1, h1]
    have := ext kernelUniform
    simpa [kernelUniform] using this
  rw [if_neg h1]
  by_cases h2 : casefold name = "triangular"
  · rw [if_pos h2, h2]
    have := ext kernelTriangular
    simpa [kernelTriangular] using this
  rw [if_neg h2]
  by_cases h3 : casefold name = "epanechnikov"
  · rw [if_pos h3, h3]
    have := ext kernelEpanechnikov
    simpa [kernelEpanechnikov] using this
  rw [if_neg h3]
  simp [h1, h2, h3]

theorem NamedKernel.nonneg {name : String} {K : Kernel} (hK : NamedKernel name K) (x h : ℝ) : 0 ≤ K x h := by
  rcases hK with ⟨-, e⟩ | ⟨-, e⟩ | ⟨-, e⟩ <;> rw [e]
  · split_ifs <;> norm_num
  · exact le_max_left _ _
  · split_ifs with hx
    · have hh : 0 < h := (abs_nonneg x).trans_lt hx
      have : (x / h) ^ 2 ≤ 1 := by
        rw [sq_le_one_iff_abs_le_one, abs_div, abs_of_pos hh, div_le_one hh]
        exact hx.le
      nlinarith
    · exact le_refl 0

theorem rdCheckSign_iff {score w : Fin n → ℝ} (hw : ∀ i, 0 ≤ w i) :
    rdCheckSign score w = .ok () ↔ (∃ i, score i < 0 ∧ 0 < w i) ∧ ∃ i, 0 < score i ∧ 0 < w i := by
  have key : ∀ p : Fin n → Prop, ∀ _ : DecidablePred p, (∑ i, if p i then w i else 0) ≠ 0 ↔ ∃ i, p i ∧ 0 < w i := by
    intro p _
    rw [Ne, Finset.sum_eq_zero_iff_of_nonneg (fun i _ => by split_ifs; exacts [hw i, le_refl 0])]
    push Not
    constructor
    · rintro ⟨i, -, hi⟩
      split_ifs at hi with hp
      · exact ⟨i, hp, (hw i).lt_of_ne hi.symm⟩
      · exact absurd rfl hi
    · rintro ⟨i, hp, hi⟩
      exact ⟨i, Finset.mem_univ i, by rw [if_pos hp]; exact hi.ne'⟩
  unfold rdCheckSign
  rw [← key (fun i => score i < 0) inferInstance, ← key (fun i => 0 < score i) inferInstance]
  split_ifs with h
  · refine ⟨fun h => (by cases h), fun ⟨h1, h2⟩ => ?_⟩
    rcases h with h | h
    · exact absurd h h1
    · exact absurd h h2
  · push Not at h
    exact ⟨fun _ => h, fun _ => rfl⟩

/-! ## The property -/

/-- **C64, RDFlex.** With a kernel given by its name, an object can be created exactly if data and settings are suitable. It
uses the given data, learners and settings and holds no results. -/
theorem C64_rdflex {casefold : String → String} {bw : ℝ} {rdrobust : RdRobust n} {fold : Fin r → Fin n → ℕ} {a : RdInput n}
    {name : String} (hname : a.fsKernel = .str name) :
    ((∃ R st, rdCreate casefold bw rdrobust fold a = .ok (R, st)) ↔ ∃ c h s K, RdSuitable casefold bw a c h s K) ∧
    ∀ R st, rdCreate casefold bw rdrobust fold a = .ok (R, st) →
      RdSuitable casefold bw a R.cutoff R.hFs R.spec R.kernel ∧ R.data = a.data ∧ R.fuzzy = a.fuzzy ∧ R.ml_g = a.ml_g ∧
      (R.gMethod = .proba ↔ a.gClassifier = true) ∧ (a.fuzzy = true → a.ml_m = some R.ml_m) ∧
      (∀ k, (R.smpls k).length = a.nFolds) ∧ st.agg = none ∧ ∀ k, st.slots k = none := by
  have fwd : ∀ R st, rdCreate casefold bw rdrobust fold a = .ok (R, st) →
      RdSuitable casefold bw a R.cutoff R.hFs R.spec R.kernel ∧ R.data = a.data ∧ R.fuzzy = a.fuzzy ∧ R.ml_g = a.ml_g ∧
      (R.gMethod = .proba ↔ a.gClassifier = true) ∧ (a.fuzzy = true → a.ml_m = some R.ml_m) ∧
      (∀ k, (R.smpls k).length = a.nFolds) ∧ st.agg = none ∧ ∀ k, st.slots k = none := by
    intro R st h
    obtain ⟨c, hc, h⟩ := bind_ok h
    obtain ⟨lm, hl, h⟩ := bind_ok h
    obtain ⟨_, hf, h⟩ := bind_ok h
    obtain ⟨b, hb, h⟩ := bind_ok h
    obtain ⟨s, hs, h⟩ := bind_ok h
    obtain ⟨⟨K, q⟩, hk, h⟩ := bind_ok h
    obtain ⟨_, hw, h⟩ := bind_ok h
    obtain ⟨rfl, rfl⟩ := Prod.mk.inj (Except.ok.inj h)
    obtain ⟨h1, h2, h3, h4, h5, h6⟩ := rdCheckData_iff.1 hc
    obtain ⟨h7, h8⟩ := rdCheckLearners_iff.1 ⟨_, hl⟩
    have hf' : 2 ≤ a.nFolds := by
      unfold rdCheckFolds at hf
      by_contra hn
      rw [if_neg hn] at hf
      cases hf
    rw [hname] at hk
    have hK : NamedKernel (casefold name) K := checkKernel_iff.1 ⟨q, hk⟩
    have hsides := (rdCheckSign_iff (fun i => hK.nonneg _ _)).1 hw
    simp only [sub_neg, sub_pos] at hsides
    refine ⟨⟨h1, h2, h3, h4, h5, h6, h7, h8, hf', rdBandwidth_iff.1 hb, checkFsSpec_iff.1 hs, ⟨name, hname, hK⟩, hsides⟩,
      rfl, rfl, rfl, ?_, ?_, ?_, rfl, fun _ => rfl⟩
    · unfold rdCheckLearners at hl
      rw [if_neg (fun hh => hh.2 (h7 hh.1))] at hl
      dsimp only at hl
      have hm : lm.1 = if a.gClassifier = true then Method.proba else Method.predict := by
        by_cases hfz : a.fuzzy = true
        · rw [if_pos hfz] at hl
          cases hm : a.ml_m with
          | none => rw [hm] at hl; cases hl
          | some L => rw [hm] at hl; rw [← Except.ok.inj hl]
        · rw [if_neg hfz] at hl
          rw [← Except.ok.inj hl]
      show lm.1 = _ ↔ _
      rw [hm]
      split_ifs with hg <;> simp [hg]
    · intro hfz
      unfold rdCheckLearners at hl
      rw [if_neg (fun hh => hh.2 (h7 hh.1))] at hl
      dsimp only at hl
      rw [if_pos hfz] at hl
      cases hm : a.ml_m with
      | none => rw [hm] at hl; cases hl
      | some L => rw [hm] at hl; rw [← Except.ok.inj hl]
    · intro k
      show (assignFolds a.nFolds (fold k)).length = _
      simp [assignFolds]
  refine ⟨⟨fun ⟨R, st, h⟩ => ⟨_, _, _, _, (fwd R st h).1⟩, ?_⟩, fwd⟩
  rintro ⟨c, h, s, K, H⟩
  obtain ⟨name', hn', hK⟩ := H.kernel
  rw [hname] at hn'
  obtain rfl := KernelArg.str.inj hn'
  obtain ⟨q, hq⟩ := checkKernel_iff.2 hK
  obtain ⟨lm, hl⟩ := rdCheckLearners_iff.2 ⟨H.outcome, H.fuzzy⟩
  have h1 := rdCheckData_iff.2 ⟨H.score, H.continuous, H.cutoff, H.range, H.treatment, H.noInstrument⟩
  have h2 : rdCheckFolds a.nFolds = .ok () := if_pos H.folds
  have h3 := rdBandwidth_iff.2 H.bandwidth
  have h4 := checkFsSpec_iff.2 H.spec
  have h5 : rdCheckSign (fun i => a.data.s i - c) (fun i => K (a.data.s i - c) h) = .ok () := by
    refine (rdCheckSign_iff (fun i => hK.nonneg _ _)).2 ?_
    simp only [sub_neg, sub_pos]
    exact H.sides
  have hex : ∃ p, rdCreate casefold bw rdrobust fold a = .ok p := by
    unfold rdCreate
    rw [h1, hl, h2, h3, h4, hname, hq]
    simp only [bind, Except.bind, h5]
    exact ⟨_, rfl⟩
  obtain ⟨⟨R, st⟩, hR⟩ := hex
  exact ⟨R, st, hR⟩

/-- Both cases occur: the object of `exRd_create`, and the same data with a bandwidth that leaves no observation. -/
example (t : Dtype) : (∃ R st, rdCreate id 1 (fun _ _ _ _ => .ok exRes) (fun (_ : Fin 1) i => i) (exRdInput t) = .ok (R, st)) ∧
    (∃ name, (exRdInput t).fsKernel = .str name) ∧
    ¬ ∃ c h s K, RdSuitable id 1 { exRdInput t with hFs := .float 0 } c h s K := by
  refine ⟨⟨_, _, exRd_create t⟩, ⟨_, rfl⟩, ?_⟩
  rintro ⟨c, h, s, K, H⟩
  have hh : h = 0 := by
    rcases H.bandwidth with ⟨h1, -⟩ | h1
    · cases h1
    · exact (PyVal.float.inj h1).symm
  obtain ⟨name, hn, hK⟩ := H.kernel
  obtain ⟨i, hi, hw⟩ := H.sides.1
  rcases hK with ⟨-, e⟩ | ⟨-, e⟩ | ⟨-, e⟩ <;> rw [e, hh] at hw
  · rw [if_neg] at hw
    · exact lt_irrefl _ hw
    · rw [not_le]
      exact abs_pos.2 (sub_ne_zero.2 hi.ne)
  · simp at hw
  · rw [if_neg (not_lt.2 (abs_nonneg _))] at hw
    exact lt_irrefl _ hw

end DML
