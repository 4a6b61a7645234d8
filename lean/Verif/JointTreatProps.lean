import Verif.TreatmentsProps
import Verif.JointProps
import Verif.AsymptoticProps

/-!
# Several treatments in large samples (C79, C84)

By C85 a model with several treatments reports for each of them what the model with this treatment alone reports.  So the large-sample
properties of the latter carry over, and the joint intervals for all treatments cover all parameters.
-/

namespace DML

open MeasureTheory ProbabilityTheory Filter Topology Finset
open scoped ENNReal

variable {Ω S : Type*} {mΩ : MeasurableSpace Ω} [MeasurableSpace S] {P : Measure Ω} {W : ℕ → Ω → S} {p r : ℕ} {Q : Type}

/-- The large-sample properties (C79) of the results for treatment number `j` of fitted models `t n`. -/
structure AsympValidAt (E : Ext) (P : Measure Ω) (t : ∀ n, Ω → LinState n Q) (j : ℕ) (θ σ : ℝ) : Prop where
  /-- `√n (coef[j] - θ) / σ` is asymptotically standard normal -/
  normal : ∀ x, ProbTends P (fun n => {ω | ∃ v, (t n ω).coef j = some v ∧ Real.sqrt n * (v - θ) / σ ≤ x}) (Phi x)
  /-- `√n se[j]` converges to `σ` in probability -/
  scale : ∀ ε, 0 < ε → ProbTends P (fun n => {ω | ∃ v, (t n ω).se j = some v ∧ |Real.sqrt n * v - σ| < ε}) 1
  /-- `(coef[j] - θ) / se[j]` is asymptotically standard normal -/
  student : ∀ x, ProbTends P (fun n => {ω | ∃ v e, (t n ω).coef j = some v ∧ (t n ω).se j = some e ∧ (v - θ) / e ≤ x}) (Phi x)
  /-- row `j` of `confint(level)` covers `θ` with probability tending to the level -/
  cover : ∀ l, 0 < l → l < 1 → ProbTends P (fun n => {ω | ∃ cis lo hi,
    (infer E (t n ω) fun _ => .confint (.bool false) (.float l)).2 = .ok (.cis cis) ∧ cis[j]? = some (lo, hi) ∧ lo ≤ θ ∧ θ ≤ hi}) l
  /-- row `j` of `confint(level)` covers any other value with probability tending to zero -/
  exclude : ∀ l, 0 < l → l < 1 → ∀ u, u ≠ θ → ProbTends P (fun n => {ω | ∃ cis lo hi,
    (infer E (t n ω) fun _ => .confint (.bool false) (.float l)).2 = .ok (.cis cis) ∧ cis[j]? = some (lo, hi) ∧ lo ≤ u ∧ u ≤ hi}) 0
  /-- if the true parameter is zero, `pval[j] <= α` has probability tending to `α` -/
  test : θ = 0 → ∀ α, 0 < α → α < 1 → ProbTends P (fun n => {ω | ∃ q v, (t n ω).fw? = some q ∧
    (q.fw.blocks.map Block.pval)[j]? = some v ∧ v ≤ α}) α
  /-- if the true parameter is not zero, `pval[j] <= α` has probability tending to one -/
  power : θ ≠ 0 → ∀ α, 0 < α → ProbTends P (fun n => {ω | ∃ q v, (t n ω).fw? = some q ∧
    (q.fw.blocks.map Block.pval)[j]? = some v ∧ v ≤ α}) 1

/-- Model objects `obj` with the treatments `tvs`, and for each treatment the model `one` with this treatment alone, the other treatments
being covariates, and with the same splits and parameters.  With probability tending to one all of them can be fitted. -/
structure Together (P : Measure Ω) (r : ℕ) (F : ∀ n, Ω → Frame n) (sp : ∀ n, LinSpec n Q) (tvs : Fin p → String) (obj : ∀ n, Ω → LinState n Q)
    (one : Fin p → ∀ n, Ω → LinState n Q) (a : FitArgs) : Prop where
  several : ∀ n, SeveralClass (sp n)
  vars : ∀ n, (sp n).vars = none
  shaped : ∀ᶠ n in atTop, ∀ ω, Shaped (obj n ω) ∧ (obj n ω).nRep = r ∧ (obj n ω).data.d = List.ofFn tvs ∧
    ∀ j, Shaped (one j n ω) ∧ Alone (F n ω) (obj n ω) (one j n ω) (tvs j)
  fits : ∃ bad : ℕ → Set Ω, Tendsto (fun n => P (bad n)) atTop (𝓝 0) ∧ ∀ᶠ n in atTop, ∀ ω, ω ∉ bad n →
    (fit (F n ω) (sp n) (obj n ω) a).2 = .ok () ∧ ∀ j, (fit (F n ω) (sp n) (one j n ω) a).2 = .ok ()

section

variable {F : ∀ n, Ω → Frame n} {sp : ∀ n, LinSpec n Q} {tvs : Fin p → String} {obj : ∀ n, Ω → LinState n Q}
  {one : Fin p → ∀ n, Ω → LinState n Q} {a : FitArgs}

/-- What the models report, with probability tending to one. -/
theorem Together.reports (H : Together P r F sp tvs obj one a) : ∃ bad : ℕ → Set Ω, Tendsto (fun n => P (bad n)) atTop (𝓝 0) ∧
    ∀ᶠ n in atTop, ∀ ω, ω ∉ bad n → ∃ (A : FW n r) (A' : Fin p → FW n r) (b : Fin p → Block n r),
      (fit (F n ω) (sp n) (obj n ω) a).1.fw? = some ⟨r, A⟩ ∧ A.cluster = none ∧ A.blocks = List.ofFn b ∧
      ∀ j, (fit (F n ω) (sp n) (one j n ω) a).1.fw? = some ⟨r, A' j⟩ ∧ (A' j).blocks = [b j] ∧
        (fit (F n ω) (sp n) (obj n ω) a).1.coef j = (fit (F n ω) (sp n) (one j n ω) a).1.coef 0 ∧
        (fit (F n ω) (sp n) (obj n ω) a).1.se j = (fit (F n ω) (sp n) (one j n ω) a).1.se 0 := by
  obtain ⟨bad, hbad, hfit⟩ := H.fits
  refine ⟨bad, hbad, ?_⟩
  filter_upwards [H.shaped, hfit] with n hs hf ω hω
  obtain ⟨s1, rfl, s3, s4⟩ := hs ω
  obtain ⟨f1, f2⟩ := hf ω hω
  have hl := (H.several n).linear
  obtain ⟨A, c, o, V⟩ := fit_view hl.usualVsf s1 f1 rfl
  have hj : ∀ j : Fin p, (obj n ω).data.d[(j : ℕ)]? = some (tvs j) := fun j => by
    rw [s3, List.getElem?_ofFn]
    simp
  have key : ∀ j : Fin p, ∃ (A' : FW n (obj n ω).nRep) (b : Block n (obj n ω).nRep),
      (fit (F n ω) (sp n) (one j n ω) a).1.fw? = some ⟨_, A'⟩ ∧ A'.blocks = [b] ∧ A.blocks[(j : ℕ)]? = some b ∧
        (fit (F n ω) (sp n) (obj n ω) a).1.coef j = (fit (F n ω) (sp n) (one j n ω) a).1.coef 0 ∧
        (fit (F n ω) (sp n) (obj n ω) a).1.se j = (fit (F n ω) (sp n) (one j n ω) a).1.se 0 := fun j => by
    obtain ⟨-, e2, e3, A1, A', e4, e5, -, ⟨b, e6, e7⟩, -⟩ := C85_separate (H.several n) s1 (s4 j).1 (s4 j).2 (hj j) f1 (f2 j)
    have : A1 = A := by
      rw [V.fw] at e4
      cases e4
      rfl
    exact ⟨A', b, e5, e6, this ▸ e7, e2, e3⟩
  choose A' b k1 k2 k3 k4 k5 using key
  refine ⟨A, A', b, V.fw, ?_, ?_, fun j => ⟨k1 j, k2 j, k4 j, k5 j⟩⟩
  · rw [V.cluster, H.vars n]
    rfl
  · apply List.ext_getElem?
    intro i
    by_cases hi : i < p
    · rw [k3 ⟨i, hi⟩, List.getElem?_ofFn, dif_pos hi]
    · rw [List.getElem?_ofFn, dif_neg hi, List.getElem?_eq_none]
      rw [V.nBlocks, s3, List.length_ofFn]
      omega

/-- **C79, several treatments.** If the models with one treatment alone have the large-sample properties, so have the results for this
treatment of the model with all treatments. -/
theorem C79_treatments [IsProbabilityMeasure P] {E : Ext} (H : Together P r F sp tvs obj one a) {j : Fin p} {θ σ : ℝ}
    (h : AsympValid E P W r (fun n ω => (fit (F n ω) (sp n) (one j n ω) a).1) θ σ) :
    AsympValidAt E P (fun n ω => (fit (F n ω) (sp n) (obj n ω) a).1) j θ σ := by
  obtain ⟨bad, hbad, hrep⟩ := H.reports
  refine ⟨fun x => (h.normal x).congr_on hbad ?_, fun ε hε => (h.scale ε hε).congr_on hbad ?_, fun x => (h.student x).congr_on hbad ?_,
    fun l h0 h1 => (h.cover l h0 h1).congr_on hbad ?_, fun l h0 h1 u hu => (h.exclude l h0 h1 u hu).congr_on hbad ?_,
    fun hθ α h0 h1 => (h.test hθ α h0 h1).congr_on hbad ?_, fun hθ α h0 => (h.power hθ α h0).congr_on hbad ?_⟩ <;>
    filter_upwards [hrep] with n hn ω hω <;> obtain ⟨A, A', b, r1, r2, r3, r4⟩ := hn ω hω <;> obtain ⟨r4, r5, r6, r7⟩ := r4 j
  · simp only [r6]
  · simp only [r7]
  · simp only [r6, r7]
  · rw [confint_of_fw r1 h0 h1, confint_of_fw r4 h0 h1, r3, r5]
    constructor
    · rintro ⟨cis, lo, hi, e1, e2, e3⟩
      obtain rfl := Out.cis.inj (Except.ok.inj e1)
      rw [List.getElem?_map, List.getElem?_ofFn, dif_pos j.2] at e2
      have e2 := Option.some.inj e2
      exact ⟨lo, hi, by rw [← e2]; rfl, e3⟩
    · rintro ⟨lo, hi, e1, e3⟩
      have e2 := (List.cons.inj (Out.cis.inj (Except.ok.inj e1))).1
      refine ⟨_, lo, hi, rfl, ?_, e3⟩
      rw [List.getElem?_map, List.getElem?_ofFn, dif_pos j.2]
      exact congrArg some e2
  · rw [confint_of_fw r1 h0 h1, confint_of_fw r4 h0 h1, r3, r5]
    constructor
    · rintro ⟨cis, lo, hi, e1, e2, e3⟩
      obtain rfl := Out.cis.inj (Except.ok.inj e1)
      rw [List.getElem?_map, List.getElem?_ofFn, dif_pos j.2] at e2
      have e2 := Option.some.inj e2
      exact ⟨lo, hi, by rw [← e2]; rfl, e3⟩
    · rintro ⟨lo, hi, e1, e3⟩
      have e2 := (List.cons.inj (Out.cis.inj (Except.ok.inj e1))).1
      refine ⟨_, lo, hi, rfl, ?_, e3⟩
      rw [List.getElem?_map, List.getElem?_ofFn, dif_pos j.2]
      exact congrArg some e2
  · rw [r1, r4]
    constructor
    · rintro ⟨q, v, e1, e2, e3⟩
      obtain rfl := Option.some.inj e1
      dsimp only at e2
      rw [r3, List.getElem?_map, List.getElem?_ofFn, dif_pos j.2] at e2
      have e2 := Option.some.inj e2
      exact ⟨_, v, rfl, by dsimp only; rw [r5, ← e2]; rfl, e3⟩
    · rintro ⟨q, v, e1, e2, e3⟩
      obtain rfl := Option.some.inj e1
      dsimp only at e2
      rw [r5] at e2
      have e2 := (List.cons.inj e2).1
      refine ⟨_, v, rfl, ?_, e3⟩
      dsimp only
      rw [r3, List.getElem?_map, List.getElem?_ofFn, dif_pos j.2]
      exact congrArg some e2
  · rw [r1, r4]
    constructor
    · rintro ⟨q, v, e1, e2, e3⟩
      obtain rfl := Option.some.inj e1
      dsimp only at e2
      rw [r3, List.getElem?_map, List.getElem?_ofFn, dif_pos j.2] at e2
      have e2 := Option.some.inj e2
      exact ⟨_, v, rfl, by dsimp only; rw [r5, ← e2]; rfl, e3⟩
    · rintro ⟨q, v, e1, e2, e3⟩
      obtain rfl := Option.some.inj e1
      dsimp only at e2
      rw [r5] at e2
      have e2 := (List.cons.inj e2).1
      refine ⟨_, v, rfl, ?_, e3⟩
      dsimp only
      rw [r3, List.getElem?_map, List.getElem?_ofFn, dif_pos j.2]
      exact congrArg some e2

/-- **C84, several treatments.** `bootstrap` followed by `confint(joint=True)` on a fitted model with several treatments: the intervals
cover the parameters of all treatments with probability tending to the level. -/
theorem C84_treatments [IsProbabilityMeasure P] {E : Ext} (hW : Iid P W) (hr : 0 < r) (hp : 0 < p) (H : Together P r F sp tvs obj one a)
    {θ σ : Fin p → ℝ} (h : ∀ j, AsympValid E P W r (fun n ω => (fit (F n ω) (sp n) (one j n ω) a).1) (θ j) (σ j)) {B : ℕ → ℕ}
    (hB : Tendsto B atTop atTop) {l : ℝ} (h0 : 0 < l) (h1 : l < 1) :
    ProbTends (P.prod normalDraws) (fun n => {z | ∃ cis,
      jointCis E (fit (F n z.1) (sp n) (obj n z.1) a).1 (B n) z.2 l = .ok (.cis cis) ∧ Covers cis θ}) l := by
  choose φ hφ _ using fun j => (h j).linear
  obtain ⟨bad, hbad, hrep⟩ := H.reports
  choose X T U bl mX mT mU hX hT hU hbl hvl using fun j => (hφ j).view
  let Bad : ℕ → Set Ω := fun n => bad n ∪ ⋃ j, bl j n
  have hBad : Tendsto (fun n => P (Bad n)) atTop (𝓝 0) := by
    have hs' := hbad.add (tendsto_finsetSum univ fun j _ => hbl j)
    simp only [Finset.sum_const_zero, add_zero] at hs'
    exact tendsto_zero_of_le (Eventually.of_forall fun n =>
      (measure_union_le _ _).trans (add_le_add le_rfl (measure_iUnion_fintype_le _ _))) hs'
  have hJ : JointLinear P W r (fun n ω C => (fit (F n ω) (sp n) (obj n ω) a).1.fw? = some C) θ φ := by
    refine ⟨fun j => (hφ j).inf, X, T, U, Bad, mX, mT, mU, hX, hT, hU, hBad, ?_⟩
    filter_upwards [hrep, eventually_all.2 hvl] with n hn hv ω hω
    obtain ⟨A, A', b, r1, r2, r3, r4⟩ := hn ω fun h => hω (Or.inl h)
    refine ⟨A, fun C => ?_, r2, ?_⟩
    · rw [r1]
      exact ⟨fun h => (Option.some.inj h).symm, fun h => by rw [h]⟩
    · rw [r3]
      congr 1
      funext j
      obtain ⟨C, c1, -, -, c4⟩ := hv j ω fun h => hω (Or.inr (Set.mem_iUnion.2 ⟨j, h⟩))
      obtain ⟨g1, g2, -⟩ := r4 j
      rw [g1] at c1
      cases c1
      rw [g2] at c4
      exact (List.cons.inj c4).1
  obtain ⟨bg, hbg, hgood⟩ := hJ.good
  refine (hJ.cover hW hr hp E hB h0 h1).congr_on (bad_prod hbg) ?_
  filter_upwards [hgood, hB.eventually_gt_atTop 0] with n hn hBn z hz
  obtain ⟨A, a1, a2⟩ := hn z.1 hz
  have ht : (fit (F n z.1) (sp n) (obj n z.1) a).1.fw? = some ⟨r, A⟩ := (a1 _).2 rfl
  show (∃ cis, jointCis E (fit (F n z.1) (sp n) (obj n z.1) a).1 (B n) z.2 l = _ ∧ _) ↔ ∃ C cis, _
  rw [jointCis_of_fw ht a2 hBn z.2 h0 h1]
  constructor
  · rintro ⟨cis, g1, g2⟩
    exact ⟨_, cis, ht, g1, g2⟩
  · rintro ⟨C, cis, g1, g2, g3⟩
    rw [(a1 C).1 g1] at g2
    exact ⟨cis, g2, g3⟩

end

end DML
