import Verif.LimitJoint
import Verif.InferenceProps

/-!
# Large samples: joint intervals of concatenated frameworks

From frameworks with influence functions to the coverage of the joint confidence intervals of their concatenation.
-/

namespace DML

open MeasureTheory ProbabilityTheory Filter Topology Finset
open scoped ENNReal

variable {Ω S : Type*} {mΩ : MeasurableSpace Ω} [MeasurableSpace S] {P : Measure Ω} {W : ℕ → Ω → S} {p r : ℕ}

/-! ## Measurability -/

theorem Measurable.kth' {B : ℕ} {f : Ω → Fin B → ℝ} (h : ∀ b, Measurable fun ω => f ω b) (k : Fin B) : Measurable fun ω => kth (f ω) k := by
  refine measurable_of_Iic fun a => ?_
  have e : (fun ω => kth (f ω) k) ⁻¹' Set.Iic a = {ω | (k : ℕ) < ∑ b : Fin B, if f ω b ≤ a then 1 else 0} := by
    ext ω
    rw [Set.mem_preimage, Set.mem_Iic, kth_le_iff, Finset.card_filter, Set.mem_ofPred_eq]
  rw [e]
  refine measurableSet_lt measurable_const (Finset.measurable_fun_sum _ fun b _ => ?_)
  exact Measurable.ite (measurableSet_le (h b) measurable_const) measurable_const measurable_const

theorem Measurable.quantile' {B : ℕ} {f : Ω → Fin B → ℝ} (h : ∀ b, Measurable fun ω => f ω b) (l : ℝ) :
    Measurable fun ω => quantile (f ω) l := by
  unfold quantile
  split_ifs with hB
  · dsimp only
    exact (Measurable.kth' h _).add (((Measurable.kth' h _).sub (Measurable.kth' h _)).const_mul _)
  · exact measurable_const

theorem Measurable.maxList' {p : ℕ} {f : Ω → Fin p → ℝ} (h : ∀ j, Measurable fun ω => f ω j) :
    Measurable fun ω => maxList (List.ofFn (f ω)) := by
  induction p with
  | zero => simp only [List.ofFn_zero]; exact measurable_const
  | succ p ih =>
    have e : (fun ω => maxList (List.ofFn (f ω))) = fun ω => max (f ω 0) (maxList (List.ofFn fun j : Fin p => f ω j.succ)) := by
      funext ω
      rw [List.ofFn_succ]
      rfl
    rw [e]
    exact (h 0).max (ih fun j => h j.succ)

theorem maxList_le_iff (l : List ℝ) {x : ℝ} (hx : 0 ≤ x) : maxList l ≤ x ↔ ∀ v ∈ l, v ≤ x := by
  induction l with
  | nil => simp [maxList, hx]
  | cons a l ih =>
    rw [show maxList (a :: l) = max a (maxList l) from rfl, max_le_iff, ih]
    simp

/-! ## Coverage -/

/-- `framework.bootstrap(method="normal", n_rep_boot=B)` followed by `framework.confint(joint=True, level=l)`
(/repo/doubleml/double_ml_framework.py:627-711), where the multipliers are read from `ζ`. -/
noncomputable def DynFW.jointCis {n : ℕ} (E : Ext) (A : DynFW n) (B : ℕ) (ζ : Multipliers) (l : ℝ) : Except Exc Out :=
  ((RState.step E { fw := A.fw } (.bootstrap (.str "normal") (.int B) fun _ k b i => ζ (k, b, i))).1.step E
    (.confint (.bool true) (.float l))).2

/-- The intervals of a framework without clusters. -/
theorem DynFW.jointCis_eq {n : ℕ} {E : Ext} {A : FW n r} (hc : A.cluster = none) {B : ℕ} (hB : 0 < B) (ζ : Multipliers) {l : ℝ}
    (h0 : 0 < l) (h1 : l < 1) : DynFW.jointCis E ⟨r, A⟩ B ζ l = .ok (.cis (A.blocks.map fun b => b.ci
      (jointCrit ⟨B, "normal", A.blocks.map fun b => b.bootT fun k b i => ζ (k, b, i)⟩ l))) := by
  have hb : A.bootstrap (.str "normal") (.int B) (fun _ k b i => ζ (k, b, i)) =
      .ok ⟨B, "normal", A.blocks.map fun b => b.bootT fun k b i => ζ (k, b, i)⟩ := by
    unfold FW.bootstrap checkBootstrap
    have h2 : ¬ ((B : ℤ) < 1) := by omega
    simp [PyVal.asInt, hc, h2]
  have hl : ¬ (l ≤ 0 ∨ l ≥ 1) := by
    push Not
    exact ⟨h0, h1⟩
  unfold DynFW.jointCis
  dsimp only [RState.step]
  rw [hb]
  dsimp only [FW.confint]
  rw [if_neg hl, if_pos rfl]
  rfl

/-- Frameworks with `p` parameters and `r` repetitions that estimate `θ` with influence functions `-φ`; `G n ω A` says that `A` is the
framework of the sample. -/
structure JointLinear (P : Measure Ω) (W : ℕ → Ω → S) (r : ℕ) (G : ∀ n, Ω → DynFW n → Prop) (θ : Fin p → ℝ) (φ : Fin p → S → ℝ) : Prop where
  inf : ∀ j, IsInf (P.map (W 0)) (φ j)
  view : ∃ (X T : Fin p → ℕ → Ω → Fin r → ℝ) (U : Fin p → ∀ n, Ω → Fin n → Fin r → ℝ) (bad : ℕ → Set Ω),
    (∀ j n k, Measurable fun ω => X j n ω k) ∧ (∀ j n k, Measurable fun ω => T j n ω k) ∧
    (∀ j n i k, Measurable fun ω => U j n ω i k) ∧
    (∀ j k, oP P fun n ω => Real.sqrt n * (X j n ω k - θ j) + (∑ i : Fin n, φ j (W i ω)) / Real.sqrt n) ∧
    (∀ j k, oP P fun n ω => Real.sqrt n * T j n ω k - infSd (P.map (W 0)) (φ j)) ∧
    (∀ j k, oP P fun n ω => mean fun i => (U j n ω i k - φ j (W i ω)) ^ 2) ∧
    Tendsto (fun n => P (bad n)) atTop (𝓝 0) ∧
    ∀ᶠ n in atTop, ∀ ω, ω ∉ bad n → ∃ A : FW n r, (∀ C, G n ω C ↔ C = ⟨r, A⟩) ∧ A.cluster = none ∧
      A.blocks = List.ofFn fun j =>
        ⟨aggTheta (X j n ω), aggSe (X j n ω) (T j n ω) fun _ => (n : ℝ), X j n ω, T j n ω, n, U j n ω⟩

theorem prod_fst_real {Ω' : Type*} {mΩ' : MeasurableSpace Ω'} {Q : Measure Ω'} [IsProbabilityMeasure Q] [SFinite P] (A : Set Ω) :
    (P.prod Q).real {z | z.1 ∈ A} = P.real A := by
  have : {z : Ω × Ω' | z.1 ∈ A} = A ×ˢ Set.univ := by
    ext z
    simp
  unfold Measure.real
  rw [this, Measure.prod_prod, measure_univ, mul_one]

/-- Joint confidence intervals cover all parameters with the nominal probability. -/
theorem JointLinear.cover [IsProbabilityMeasure P] (hW : Iid P W) (hr : 0 < r) (hp : 0 < p) {G : ∀ n, Ω → DynFW n → Prop} {θ : Fin p → ℝ}
    {φ : Fin p → S → ℝ} (h : JointLinear P W r G θ φ) (E : Ext) {B : ℕ → ℕ} (hB : Tendsto B atTop atTop) {l : ℝ} (h0 : 0 < l) (h1 : l < 1) :
    ProbTends (P.prod normalDraws) (fun n => {z | ∃ A cis, G n z.1 A ∧ A.jointCis E (B n) z.2 l = .ok (.cis cis) ∧ cis.length = p ∧
      ∀ j : Fin p, ∃ ci, cis[(j : ℕ)]? = some ci ∧ ci.1 ≤ θ j ∧ θ j ≤ ci.2}) l := by
  obtain ⟨X, T, U, bad, mX, mT, mU, hX, hT, hU, hbad, hview⟩ := h.view
  have hR := infCorr_isCorr h.inf
  obtain ⟨q, hq, hql⟩ := hR.exists_quantile hp h0 h1
  let c : Fin r → ∀ n, Ω → Fin n → Fin p → ℝ := fun k n ω i j => U j n ω i k / (n * T j n ω k)
  have mc : ∀ k n i j, Measurable fun ω => c k n ω i j := fun k n i j => (mU j n i k).div ((mT j n k).const_mul _)
  have hc : ∀ k j m, oP P fun n ω => ∑ i, c k n ω i j * c k n ω i m - infCorr (P.map (W 0)) φ j m := fun k j m =>
    boot_cov hW (h.inf j) (h.inf m) (hU j k) (hU m k) (hT j k) (hT m k)
  let M : Fin r → ∀ n, Ω × Multipliers → Fin (B n) → ℝ := fun k n z b =>
    maxList (List.ofFn fun j => |∑ i : Fin n, z.2 (k, b, i) * (U j n z.1 i k / (n * T j n z.1 k))|)
  let crit : ℕ → Ω × Multipliers → Fin r → ℝ := fun n z k => quantile (M k n z) l
  have hcrit : ∀ k, oP (P.prod normalDraws) fun n z => crit n z k - q := fun k => by
    refine hR.quantile hp (mc k) (hc k) hB k h0 h1 hq hql (M := M k) fun n z b x hx => ?_
    simp only [M]
    rw [maxList_le_iff _ hx, List.forall_mem_ofFn_iff]
    rfl
  have mM : ∀ k n b, Measurable fun z : Ω × Multipliers => M k n z b := fun k n b => Measurable.maxList' fun j => by
    refine Measurable.abs ?_
    exact Finset.measurable_fun_sum _ fun (i : Fin n) _ => ((measurable_pi_apply _).comp measurable_snd).mul
      ((mc k n i j).comp measurable_fst)
  have mcrit : ∀ n k, Measurable fun z => crit n z k := fun n k => Measurable.quantile' (mM k n) l
  have hsd := fun j => (h.inf j).sd_pos
  have key := agg_joint_cover (P := P.prod normalDraws) hr hR (Z := fun j n z => -infZ P W (φ j) n z.1) (σ := fun j => infSd (P.map (W 0)) (φ j))
    (θ := θ) (X := fun j n z => X j n z.1) (T := fun j n z => T j n z.1) hsd
    (fun x => by
      refine (hW.box h.inf x).congr fun n => ?_
      rw [← prod_fst_real (Q := normalDraws)]
      simp only [abs_neg]
      rfl)
    (fun j k => ⟨(hX j k).fst.mono (Eventually.of_forall fun n z => le_of_eq (by
        have := (hsd j).ne'
        unfold infZ
        rw [← Finset.sum_div]
        congr 1
        field_simp
        ring)), (hT j k).fst⟩) hq hcrit
  rw [hql] at key
  refine ProbTends.of_close (B := fun n => {z | z.1 ∈ bad n}) (fun n => ?_) key ?_ ?_
  · have : {z : Ω × Multipliers | ∀ j, median (fun k => X j n z.1 k - T j n z.1 k * crit n z k) ≤ θ j ∧
        θ j ≤ median fun k => X j n z.1 k + T j n z.1 k * crit n z k} =
      ⋂ j, ({z | median (fun k => X j n z.1 k - T j n z.1 k * crit n z k) ≤ θ j} ∩
        {z | θ j ≤ median fun k => X j n z.1 k + T j n z.1 k * crit n z k}) := by
      ext z
      simp
    rw [this]
    exact MeasurableSet.iInter fun j =>
      (measurableSet_le (Measurable.median' hr fun k => ((mX j n k).comp measurable_fst).sub
        (((mT j n k).comp measurable_fst).mul (mcrit n k))) measurable_const).inter
      (measurableSet_le measurable_const (Measurable.median' hr fun k => ((mX j n k).comp measurable_fst).add
        (((mT j n k).comp measurable_fst).mul (mcrit n k))))
  · refine hbad.congr fun n => ?_
    have : {z : Ω × Multipliers | z.1 ∈ bad n} = bad n ×ˢ Set.univ := by
      ext z
      simp
    rw [this, Measure.prod_prod, measure_univ, mul_one]
  · filter_upwards [hview, hB.eventually_gt_atTop 0] with n hn hBn z hz
    obtain ⟨A, hG, hcl, hbl⟩ := hn z.1 hz
    let bl : Fin p → Block n r := fun j =>
      ⟨aggTheta (X j n z.1), aggSe (X j n z.1) (T j n z.1) fun _ => (n : ℝ), X j n z.1, T j n z.1, n, U j n z.1⟩
    have hbl' : A.blocks = List.ofFn bl := hbl
    have hjc := DynFW.jointCis_eq (E := E) hcl hBn z.2 h0 h1
    rw [hbl', List.map_ofFn, List.map_ofFn] at hjc
    have hcr : jointCrit ⟨B n, "normal", List.ofFn ((fun b : Block n r => b.bootT fun k b i => z.2 (k, b, i)) ∘ bl)⟩ l = crit n z := by
      funext k
      unfold jointCrit
      dsimp only
      simp only [List.map_ofFn]
      rfl
    rw [hcr] at hjc
    constructor
    · rintro ⟨C, cis, hC, hcis, hlen, hcov⟩ j
      rw [(hG C).1 hC, hjc] at hcis
      obtain rfl := Out.cis.inj (Except.ok.inj hcis)
      obtain ⟨ci, hci, h3⟩ := hcov j
      rw [List.getElem?_ofFn, dif_pos j.2] at hci
      rw [← Option.some.inj hci] at h3
      exact h3
    · intro hcov
      refine ⟨_, _, (hG _).2 rfl, hjc, by simp, fun j => ⟨(bl j).ci (crit n z), ?_, hcov j⟩⟩
      rw [List.getElem?_ofFn, dif_pos j.2]
      rfl

/-! ## Building frameworks from frameworks -/

/-- Estimates of several frameworks with one parameter, concatenated. -/
theorem AsympLinear.concat {G : Fin p → ∀ n, Ω → Option (DynFW n)} {θ : Fin p → ℝ} {φ : Fin p → S → ℝ} (hp : 0 < p)
    (h : ∀ j, AsympLinear P W r (G j) (θ j) (φ j)) :
    JointLinear P W r (fun n ω C => ∃ As, (List.ofFn fun j => G j n ω) = As.map some ∧ DynFW.concat As = .ok C) θ φ := by
  choose X T U bad mX mT mU hX hT hU hbad hview using fun j => (h j).view
  refine ⟨fun j => (h j).inf, X, T, U, fun n => ⋃ j, bad j n, mX, mT, mU, hX, hT, hU, ?_, ?_⟩
  · have hs : Tendsto (fun n => ∑ j, P (bad j n)) atTop (𝓝 (∑ _j : Fin p, 0)) := tendsto_finsetSum _ fun j _ => hbad j
    simp only [Finset.sum_const_zero] at hs
    exact tendsto_zero_of_le (Eventually.of_forall fun n => measure_iUnion_fintype_le _ _) hs
  · filter_upwards [eventually_all.2 hview] with n hn ω hω
    have hω' : ∀ j, ω ∉ bad j n := fun j hj => hω (Set.mem_iUnion.2 ⟨j, hj⟩)
    choose A hA1 hA2 hA3 hA4 using fun j => hn j ω (hω' j)
    have hAs : ∀ As : List (DynFW n), (List.ofFn fun j => G j n ω) = As.map some ↔ As = List.ofFn fun j => ⟨r, A j⟩ := fun As => by
      have e : (List.ofFn fun j => G j n ω) = (List.ofFn fun j => (⟨r, A j⟩ : DynFW n)).map some := by
        rw [List.map_ofFn]
        congr 1
        funext j
        exact hA1 j
      rw [e]
      exact ⟨fun h => (List.map_injective_iff.2 (Option.some_injective _) h).symm, fun h => by rw [h]⟩
    have hgood : ∀ C ∈ List.ofFn fun j => (⟨r, A j⟩ : DynFW n), GoodFw r C := fun C hC => by
      obtain ⟨j, rfl⟩ := List.mem_ofFn.1 hC
      exact ⟨A j, rfl, hA2 j, hA3 j, _, hA4 j, rfl⟩
    obtain ⟨C, hC⟩ := concat_good (by
      intro h0
      have := congrArg List.length h0
      simp only [List.length_ofFn, List.length_nil] at this
      omega) hgood
    obtain ⟨fs, hfs, hcon⟩ := dynConcat_ok hC
    obtain ⟨R, D⟩ := C
    have hRr : R = r := by
      have h1 := congrArg (fun l => l[0]?.map DynFW.r) hfs
      have h2 : (List.ofFn fun j => (⟨r, A j⟩ : DynFW n))[0]?.map DynFW.r = some r := by
        rw [List.getElem?_ofFn, dif_pos hp]
        rfl
      have h3 : fs ≠ [] := fun h0 => by
        have := congrArg List.length hfs
        rw [h0] at this
        simp only [List.length_ofFn, List.map_nil, List.length_nil] at this
        omega
      obtain ⟨f, fs', rfl⟩ := List.exists_cons_of_ne_nil h3
      dsimp only at h1
      rw [h2] at h1
      exact (Option.some.inj h1).symm
    subst hRr
    have hfs' : fs = List.ofFn A := by
      have e : (List.ofFn fun j => (⟨R, A j⟩ : DynFW n)) = (List.ofFn A).map (DynFW.mk R) := by
        rw [List.map_ofFn]
        rfl
      rw [e] at hfs
      refine (List.map_injective_iff.2 (fun a b hab => ?_) hfs).symm
      cases hab
      rfl
    have hok := FW.concat_ok hcon
    refine ⟨D, fun C' => ?_, hok.2.2.1, ?_⟩
    · constructor
      · rintro ⟨As, h1, h2⟩
        rw [(hAs As).1 h1, hC] at h2
        exact (Except.ok.inj h2).symm
      · rintro rfl
        exact ⟨_, (hAs _).2 rfl, hC⟩
    · rw [hok.2.1, hfs', List.map_ofFn]
      have e : (FW.blocks ∘ A) = fun j => [⟨aggTheta (X j n ω), aggSe (X j n ω) (T j n ω) fun _ => (n : ℝ), X j n ω, T j n ω, n, U j n ω⟩] :=
        funext fun j => hA4 j
      rw [e, List.ofFn_eq_map, List.ofFn_eq_map]
      generalize List.finRange p = L
      induction L with
      | nil => rfl
      | cons a L ih => simp [ih]

end DML
