import Verif.LimitCombine
import Verif.ContrastProps

/-!
# Joint inference in large samples (C84)

Joint confidence intervals from the multiplier bootstrap with normal multipliers (the default): as the number of observations and of
bootstrap draws grow, the probability that they cover all parameters at once tends to their level.
-/

namespace DML

open MeasureTheory ProbabilityTheory Filter Topology Finset
open scoped ENNReal

variable {Ω S : Type*} {mΩ : MeasurableSpace Ω} [MeasurableSpace S] {P : Measure Ω} {W : ℕ → Ω → S} {p r : ℕ} {Q : Type}

theorem ProbTends.congr_on [IsProbabilityMeasure P] {A A' B : ℕ → Set Ω} {v : ℝ} (h : ProbTends P A' v)
    (hB : Tendsto (fun n => P (B n)) atTop (𝓝 0)) (hA : ∀ᶠ n in atTop, ∀ ω, ω ∉ B n → (ω ∈ A n ↔ ω ∈ A' n)) : ProbTends P A v :=
  ⟨measureReal_congr_on h.1 hB hA, measureReal_congr_on (A' := fun n => (A' n)ᶜ) h.2 hB (hA.mono fun _ hn ω hω => not_congr (hn ω hω))⟩

/-- A list of intervals that contain the given numbers, one each. -/
def Covers (cis : List (ℝ × ℝ)) (θ : Fin p → ℝ) : Prop :=
  cis.length = p ∧ ∀ j : Fin p, ∃ ci, cis[(j : ℕ)]? = some ci ∧ ci.1 ≤ θ j ∧ θ j ≤ ci.2

/-- **C84, several models.** For fitted models with the large-sample properties of C79, possibly of different classes, on the same
observations: the joint intervals of the concatenation of their frameworks cover all true parameters with probability tending to the level. -/
theorem C84_concat [IsProbabilityMeasure P] {E : Ext} (hW : Iid P W) (hr : 0 < r) (hp : 0 < p) {Q : Fin p → Type}
    {t : ∀ j, ∀ n, Ω → LinState n (Q j)} {θ σ : Fin p → ℝ} (h : ∀ j, AsympValid E P W r (t j) (θ j) (σ j)) {B : ℕ → ℕ}
    (hB : Tendsto B atTop atTop) {l : ℝ} (h0 : 0 < l) (h1 : l < 1) :
    ProbTends (P.prod normalDraws) (fun n => {z | ∃ As C cis, (List.ofFn fun j => (t j n z.1).fw?) = As.map some ∧
      DynFW.concat As = .ok C ∧ C.jointCis E (B n) z.2 l = .ok (.cis cis) ∧ Covers cis θ}) l := by
  choose φ hφ _ using fun j => (h j).linear
  have := (AsympLinear.concat hp hφ).cover hW hr hp E hB h0 h1
  refine this.congr_on (B := fun _ => ∅) (by simp) (Eventually.of_forall fun n z _ => ?_)
  constructor
  · rintro ⟨As, C, cis, g1, g2, g3, g4⟩
    exact ⟨C, cis, ⟨As, g1, g2⟩, g3, g4⟩
  · rintro ⟨C, cis, ⟨As, g1, g2⟩, g3, g4⟩
    exact ⟨As, C, cis, g1, g2, g3, g4⟩

/-- The joint intervals of a model object: `bootstrap(method="normal", n_rep_boot=B)`, then `confint(joint=True, level=l)`. -/
noncomputable def jointCis {n : ℕ} {M : Type} (E : Ext) (t : MState n Q M) (B : ℕ) (ζ : Multipliers) (l : ℝ) : Except Exc Out :=
  (infer E (infer E t fun _ => .bootstrap (.str "normal") (.int B) fun _ k b i => ζ (k, b, i)).1 fun _ =>
    .confint (.bool true) (.float l)).2

theorem RState.joint_eq {n : ℕ} {E : Ext} {s : RState n r} (hc : s.fw.cluster = none) {B : ℕ} (hB : 0 < B) (ζ : Multipliers) :
    s.step E (.bootstrap (.str "normal") (.int B) fun _ k b i => ζ (k, b, i)) =
      ({ s with boot := some ⟨B, "normal", s.fw.blocks.map fun b => b.bootT fun k b i => ζ (k, b, i)⟩ }, .ok .self) := by
  have hb : s.fw.bootstrap (.str "normal") (.int B) (fun _ k b i => ζ (k, b, i)) =
      .ok ⟨B, "normal", s.fw.blocks.map fun b => b.bootT fun k b i => ζ (k, b, i)⟩ := by
    unfold FW.bootstrap checkBootstrap
    have h2 : ¬ ((B : ℤ) < 1) := by omega
    simp [PyVal.asInt, hc, h2]
  dsimp only [RState.step]
  rw [hb]

theorem jointCis_of_fw {n : ℕ} {M : Type} {E : Ext} {t : MState n Q M} {A : FW n r} (h : t.fw? = some ⟨r, A⟩) (hc : A.cluster = none) {B : ℕ}
    (hB : 0 < B) (ζ : Multipliers) {l : ℝ} (h0 : 0 < l) (h1 : l < 1) : jointCis E t B ζ l = DynFW.jointCis E ⟨r, A⟩ B ζ l := by
  rw [DynFW.jointCis_eq hc hB ζ h0 h1]
  unfold jointCis
  unfold MState.fw? at h
  cases hf : t.framework with
  | none => rw [hf] at h; cases h
  | some o =>
    rw [hf] at h
    obtain ⟨rr, ad, st⟩ := o
    have h' := Option.some.inj h
    dsimp only at h'
    obtain rfl : rr = r := congrArg DynFW.r h'
    have hA : (FwObj.view t.heap ⟨rr, ad, st⟩).fw = A := by
      cases h'
      rfl
    have e1 : (infer E t fun _ => .bootstrap (.str "normal") (.int B) fun _ k b i => ζ (k, b, i)).1 =
        { t with framework := some ⟨rr, ad, { FwObj.view t.heap ⟨rr, ad, st⟩ with
          boot := some ⟨B, "normal", A.blocks.map fun b => b.bootT fun k b i => ζ (k, b, i)⟩ }⟩ } := by
      unfold infer
      rw [hf]
      dsimp only
      rw [RState.joint_eq (by rw [hA]; exact hc) hB ζ, hA]
    rw [e1]
    unfold infer
    dsimp only [RState.step]
    have e2 : (FwObj.view t.heap ⟨rr, ad, { FwObj.view t.heap ⟨rr, ad, st⟩ with
        boot := some ⟨B, "normal", A.blocks.map fun b => b.bootT fun k b i => ζ (k, b, i)⟩ }⟩).fw = A := by
      rw [← hA]
      have e3 := congrArg RState.fw (view_view t.heap ⟨rr, ad, st⟩)
      exact e3
    rw [e2]
    have hl : ¬ (l ≤ 0 ∨ l ≥ 1) := by
      push Not
      exact ⟨h0, h1⟩
    unfold FW.confint
    dsimp only [FwObj.view]
    rw [if_neg hl, if_pos rfl]
    rfl

theorem AsympLinear.one {G : ∀ n, Ω → Option (DynFW n)} {θ : ℝ} {φ : S → ℝ} (h : AsympLinear P W r G θ φ) :
    JointLinear P W r (fun n ω C => G n ω = some C) (fun _ : Fin 1 => θ) fun _ => φ := by
  obtain ⟨X, T, U, bad, mX, mT, mU, hX, hT, hU, hbad, hview⟩ := h.view
  refine ⟨fun _ => h.inf, fun _ => X, fun _ => T, fun _ => U, bad, fun _ => mX, fun _ => mT, fun _ => mU, fun _ => hX, fun _ => hT, fun _ => hU,
    hbad, ?_⟩
  filter_upwards [hview] with n hn ω hω
  obtain ⟨A, a1, -, a3, a4⟩ := hn ω hω
  refine ⟨A, fun C => ?_, a3, by rw [a4]; simp⟩
  rw [a1]
  exact ⟨fun h => (Option.some.inj h).symm, fun h => by rw [h]⟩

theorem JointLinear.good {G : ∀ n, Ω → DynFW n → Prop} {θ : Fin p → ℝ} {φ : Fin p → S → ℝ} (h : JointLinear P W r G θ φ) :
    ∃ bad : ℕ → Set Ω, Tendsto (fun n => P (bad n)) atTop (𝓝 0) ∧ ∀ᶠ n in atTop, ∀ ω, ω ∉ bad n → ∃ A : FW n r,
      (∀ C, G n ω C ↔ C = ⟨r, A⟩) ∧ A.cluster = none := by
  obtain ⟨X, T, U, bad, -, -, -, -, -, -, hbad, hview⟩ := h.view
  exact ⟨bad, hbad, hview.mono fun n hn ω hω => by
    obtain ⟨A, a1, a2, -⟩ := hn ω hω
    exact ⟨A, a1, a2⟩⟩

theorem bad_prod [SFinite P] {Ω' : Type*} {mΩ' : MeasurableSpace Ω'} {R : Measure Ω'} [IsProbabilityMeasure R] {bad : ℕ → Set Ω}
    (h : Tendsto (fun n => P (bad n)) atTop (𝓝 0)) : Tendsto (fun n => (P.prod R) {z | z.1 ∈ bad n}) atTop (𝓝 0) := by
  refine h.congr fun n => ?_
  have : {z : Ω × Ω' | z.1 ∈ bad n} = bad n ×ˢ Set.univ := by
    ext z
    simp
  rw [this, Measure.prod_prod, measure_univ, mul_one]

/-- **C84, one model.** `bootstrap` followed by `confint(joint=True)` on a fitted model with the large-sample properties of C79: the
interval covers the true parameter with probability tending to the level. -/
theorem C84_fit [IsProbabilityMeasure P] {E : Ext} (hW : Iid P W) (hr : 0 < r) {t : ∀ n, Ω → LinState n Q} {θ σ : ℝ}
    (h : AsympValid E P W r t θ σ) {B : ℕ → ℕ} (hB : Tendsto B atTop atTop) {l : ℝ} (h0 : 0 < l) (h1 : l < 1) :
    ProbTends (P.prod normalDraws) (fun n => {z | ∃ lo hi, jointCis E (t n z.1) (B n) z.2 l = .ok (.cis [(lo, hi)]) ∧ lo ≤ θ ∧ θ ≤ hi}) l := by
  obtain ⟨φ, hφ, -⟩ := h.linear
  obtain ⟨bad, hbad, hgood⟩ := hφ.one.good
  refine (hφ.one.cover hW hr one_pos E hB h0 h1).congr_on (bad_prod hbad) ?_
  filter_upwards [hgood, hB.eventually_gt_atTop 0] with n hn hBn z hz
  obtain ⟨A, a1, a2⟩ := hn z.1 hz
  have ht : (t n z.1).fw? = some ⟨r, A⟩ := (a1 _).2 rfl
  show (∃ lo hi, jointCis E (t n z.1) (B n) z.2 l = _ ∧ _) ↔ ∃ C cis, _
  rw [jointCis_of_fw ht a2 hBn z.2 h0 h1]
  constructor
  · rintro ⟨lo, hi, g1, g2⟩
    exact ⟨_, _, ht, g1, rfl, fun j => ⟨(lo, hi), by fin_cases j; rfl, g2⟩⟩
  · rintro ⟨C, cis, g1, g2, g3, g4⟩
    rw [(a1 C).1 g1] at g2
    obtain ⟨ci, hci⟩ := List.length_eq_one_iff.1 g3
    obtain ⟨ci', c1, c2⟩ := g4 0
    rw [hci] at c1
    obtain rfl := Option.some.inj c1
    exact ⟨ci.1, ci.2, by rw [g2, hci], c2⟩

/-! ## Average potential outcomes and causal contrasts -/

section Apos

variable {L M : Type} [DecidableEq L]

/-- The joint intervals of a `DoubleMLAPOS` object. -/
noncomputable def multiJointCis {n : ℕ} (E : Ext) (s : Multi n Q M) (B : ℕ) (ζ : Multipliers) (l : ℝ) : Except Exc Out :=
  (multiInfer E (multiInfer E s fun _ => .bootstrap (.str "normal") (.int B) fun _ k b i => ζ (k, b, i)).1 fun _ =>
    .confint (.bool true) (.float l)).2

theorem fitSubs_ofFn {n : ℕ} {F : Frame n} {p : ℕ} {ca : Fin p → SubClass n Q M × FitArgs} {m : Fin p → MState n Q M}
    (h : ∀ j, (fit F (ca j).1.spec (m j) (ca j).2).2 = .ok ()) :
    fitSubs F (List.ofFn ca) (List.ofFn m) = (List.ofFn fun j => (fit F (ca j).1.spec (m j) (ca j).2).1, .ok ()) := by
  induction p with
  | zero => simp only [List.ofFn_zero]; rfl
  | succ p ih =>
    have h0 := h 0
    simp only [List.ofFn_succ]
    unfold fitSubs
    rcases hq : fit F (ca 0).1.spec (m 0) (ca 0).2 with ⟨m', (e | u)⟩
    · rw [hq] at h0; cases h0
    · dsimp only
      rw [ih fun j => h j.succ]

/-- What is asked of the fitted sub-models: with probability tending to one the fits succeed, and the estimates have influence functions. -/
structure SubsLinear (P : Measure Ω) (W : ℕ → Ω → S) (r : ℕ) (F : ∀ n, Ω → Frame n) (c : Fin p → ∀ n, SubClass n Q M)
    (m : Fin p → ∀ n, Ω → MState n Q M) (a : FitArgs) (θ : Fin p → ℝ) (φ : Fin p → S → ℝ) : Prop where
  fits : ∀ j, ∃ bad : ℕ → Set Ω, Tendsto (fun n => P (bad n)) atTop (𝓝 0) ∧ ∀ᶠ n in atTop, ∀ ω, ω ∉ bad n →
    (fit (F n ω) (c j n).spec (m j n ω) a).2 = .ok ()
  linear : ∀ j, AsympLinear P W r (fun n ω => (fit (F n ω) (c j n).spec (m j n ω) a).1.fw?) (θ j) (φ j)

/-- What `fit` leaves behind. -/
theorem apoFit_subs {n : ℕ} {F : Frame n} {levels : List L} (hl : levels.length = p) {dCol : String} {c : Fin p → SubClass n Q M}
    {m : Fin p → MState n Q M} {a : FitArgs} (ha : a.ext = .none) {s : Multi n Q M} (hs : s.subs = some (List.ofFn m))
    (h : ∀ j, (fit F (c j).spec (m j) a).2 = .ok ()) {A : Fin p → DynFW n} (hA : ∀ j, (fit F (c j).spec (m j) a).1.fw? = some (A j)) {C : DynFW n}
    (hC : DynFW.concat (List.ofFn A) = .ok C) :
    apoFit F levels dCol (List.ofFn c) s a .none =
      ({ s with subs := some (List.ofFn fun j => (fit F (c j).spec (m j) a).1), framework := some ⟨C.r, { fw := C.fw }⟩ }, .ok ()) := by
  have ea : ({ a with ext := .none } : FitArgs) = a := by rw [← ha]
  have ez : List.zipWith (fun (c : SubClass n Q M) x => (c, ({ a with ext := x } : FitArgs))) (List.ofFn c) (levels.map fun _ => ExtArg.none) =
      List.ofFn fun j => (c j, a) := by
    apply List.ext_getElem
    · simp [hl]
    · intro i h1 h2
      simp [ea]
  unfold apoFit apoExtArgs
  dsimp only
  rw [ez]
  unfold multiFit
  rw [hs]
  dsimp only
  rw [fitSubs_ofFn (ca := fun j => (c j, a)) h]
  dsimp only
  have eg : (List.ofFn fun j => (fit F (c j).spec (m j) a).1).mapM getFw = .ok (List.ofFn A) := by
    clear hC ez hs hl
    induction p with
    | zero => simp only [List.ofFn_zero]; rfl
    | succ p ih =>
      simp only [List.ofFn_succ, List.mapM_cons]
      rw [ih (fun j => h j.succ) fun j => hA j.succ]
      unfold getFw
      rw [hA 0]
      rfl
  rw [eg]
  unfold setFw
  show (match DynFW.concat (List.ofFn A) with
    | .error e => _
    | .ok A => _) = _
  rw [hC]

theorem multiJointCis_of {n : ℕ} {E : Ext} {s : Multi n Q M} {C : DynFW n} (h : s.framework = some ⟨C.r, { fw := C.fw }⟩) (B : ℕ) (ζ : Multipliers)
    (l : ℝ) : multiJointCis E s B ζ l = C.jointCis E B ζ l := by
  unfold multiJointCis multiInfer
  rw [h]
  rfl

/-- **C84, average potential outcomes.** `fit`, `bootstrap` and `confint(joint=True)` of `DoubleMLAPOS`: the intervals cover all average
potential outcomes with probability tending to the level. -/
theorem C84_apos [IsProbabilityMeasure P] {E : Ext} (hW : Iid P W) (hr : 0 < r) (hp : 0 < p) {F : ∀ n, Ω → Frame n}
    {c : Fin p → ∀ n, SubClass n Q M} {m : Fin p → ∀ n, Ω → MState n Q M} {a : FitArgs} (ha : a.ext = .none) {θ : Fin p → ℝ} {φ : Fin p → S → ℝ}
    (h : SubsLinear P W r F c m a θ φ) {levels : List L} (hl : levels.length = p) {dCol : String} {s : ∀ n, Ω → Multi n Q M}
    (hs : ∀ n ω, (s n ω).subs = some (List.ofFn fun j => m j n ω)) {B : ℕ → ℕ} (hB : Tendsto B atTop atTop) {l : ℝ} (h0 : 0 < l) (h1 : l < 1) :
    ProbTends (P.prod normalDraws) (fun n => {z | ∃ cis,
      multiJointCis E (apoFit (F n z.1) levels dCol (List.ofFn fun j => c j n) (s n z.1) a .none).1 (B n) z.2 l = .ok (.cis cis) ∧
      Covers cis θ}) l := by
  choose bad hbad hfit using h.fits
  have hJ := AsympLinear.concat hp h.linear
  obtain ⟨bad', hbad', hgood⟩ := hJ.good
  have hs' : Tendsto (fun n => P (bad' n) + ∑ j, P (bad j n)) atTop (𝓝 (0 + ∑ _j : Fin p, 0)) := hbad'.add (tendsto_finsetSum _ fun j _ => hbad j)
  simp only [Finset.sum_const_zero, add_zero] at hs'
  have hall : Tendsto (fun n => P (bad' n ∪ ⋃ j, bad j n)) atTop (𝓝 0) := tendsto_zero_of_le (Eventually.of_forall fun n =>
    (measure_union_le _ _).trans (add_le_add le_rfl (measure_iUnion_fintype_le _ _))) hs'
  refine (hJ.cover hW hr hp E hB h0 h1).congr_on (bad_prod hall) ?_
  filter_upwards [hgood, eventually_all.2 hfit] with n hn hf z hz
  obtain ⟨A, a1, a2⟩ := hn z.1 fun h => hz (Or.inl h)
  have hok : ∀ j, (fit (F n z.1) (c j n).spec (m j n z.1) a).2 = .ok () := fun j => hf j z.1 fun h => hz (Or.inr (Set.mem_iUnion.2 ⟨j, h⟩))
  obtain ⟨As, g1, g2⟩ := (a1 ⟨r, A⟩).2 rfl
  obtain ⟨A', rfl⟩ : ∃ A' : Fin p → DynFW n, As = List.ofFn A' := by
    have hlen : As.length = p := by
      have := congrArg List.length g1
      simpa using this.symm
    subst hlen
    exact ⟨fun j => As[j], (List.ofFn_getElem).symm⟩
  rw [List.map_ofFn] at g1
  have hA' := fun j => congrFun (List.ofFn_injective g1) j
  have hfitted := apoFit_subs hl (dCol := dCol) ha (hs n z.1) hok hA' g2
  show (∃ cis, multiJointCis E (apoFit (F n z.1) levels dCol (List.ofFn fun j => c j n) (s n z.1) a .none).1 (B n) z.2 l = _ ∧ _) ↔ ∃ C cis, _
  rw [hfitted, multiJointCis_of (C := ⟨r, A⟩) rfl]
  constructor
  · rintro ⟨cis, e1, e2⟩
    exact ⟨⟨r, A⟩, cis, (a1 _).2 rfl, e1, e2⟩
  · rintro ⟨C, cis, e0, e1, e2⟩
    rw [(a1 C).1 e0] at e1
    exact ⟨cis, e1, e2⟩

theorem causalContrast_cluster {n : ℕ} {levels : List L} {str : L → String} {s : Multi n Q M} {refs : RefArg L} {A : DynFW n}
    (h : causalContrast levels str s refs = .ok A) : A.fw.cluster = none := by
  unfold causalContrast at h
  split_ifs at h
  obtain ⟨fws, h1, h⟩ := bind_ok h
  obtain ⟨acc, h2, h⟩ := bind_ok h
  unfold setNames at h
  split_ifs at h
  obtain ⟨fs, -, hcon⟩ := dynConcat_ok h2
  obtain rfl := Except.ok.inj h
  exact (FW.concat_ok hcon).2.2.1

omit [DecidableEq L] in
/-- The parameter of a contrast is the difference of the parameters. -/
theorem IsContrast.block {n r : ℕ} {v : ℝ} {m ref : MState n Q M} {b : Block n r} {e : Sens n r} (h : IsContrast m ref b e)
    (hm : Ready r v m) (hr : Ready r v ref) {A A' : FW n r} (hA : m.fw? = some ⟨r, A⟩) (hA' : ref.fw? = some ⟨r, A'⟩) {x x' : Block n r}
    (hx : A.blocks = [x]) (hx' : A'.blocks = [x']) : b = x.sub x' := by
  obtain ⟨A1, A2, bm, br, e1, e2, e3, e4, e5, e6⟩ := h.psi
  obtain ⟨A3, b3, f3, -⟩ := hm
  obtain ⟨A4, b4, f4, -⟩ := hr
  have u1 := e1.symm.trans hA
  have u2 := e2.symm.trans hA'
  have u3 := f3.fw.symm.trans hA
  have u4 := f4.fw.symm.trans hA'
  cases u1
  cases u2
  cases u3
  cases u4
  obtain rfl : bm = x := by simpa [e3] using hx
  obtain rfl : br = x' := by simpa [e4] using hx'
  have v3 := f3.blocks
  have v4 := f4.blocks
  obtain rfl : bm = b3 := by simpa [e3] using v3
  obtain rfl : br = b4 := by simpa [e4] using v4
  have ht : b.allTheta = fun k => bm.allTheta k - br.allTheta k := funext fun k => by rw [h.theta k, f3.theta k, f4.theta k]
  have hp : b.psi = fun i k => bm.psi i k - br.psi i k := funext fun i => funext fun k => e5 i k
  rw [e6, ht, hp]
  rfl

/-- **C84, causal contrasts.** The joint intervals of `causal_contrast` cover all differences of average potential outcomes with probability
tending to the level. -/
theorem C84_contrast [IsProbabilityMeasure P] {E : Ext} (hW : Iid P W) (hr : 0 < r) {F : ∀ n, Ω → Frame n}
    {c : Fin p → ∀ n, SubClass n Q M} (hc : ∀ j (n : ℕ), PlainClass (n : ℝ) (c j n)) {m : Fin p → ∀ n, Ω → MState n Q M}
    (hm : ∀ᶠ n in atTop, ∀ j ω, Shaped (m j n ω) ∧ (m j n ω).data.d.length = 1 ∧ (m j n ω).nRep = r)
    {a : FitArgs} (ha : a.ext = .none) {θ : Fin p → ℝ} {φ : Fin p → S → ℝ}
    (h : SubsLinear P W r F c m a θ φ) {levels : List L} (hl : levels.length = p) (hnd : levels.Nodup) (hp : p ≠ 1) {dCol : String}
    {s : ∀ n, Ω → Multi n Q M} (hs : ∀ n ω, (s n ω).subs = some (List.ofFn fun j => m j n ω)) {refs : RefArg L} (hrefs : refs.list ≠ [])
    (hsub : refs.list ⊆ levels) (hv : ∀ i j : Fin p, i ≠ j → ∫ w, (φ i w - φ j w) ^ 2 ∂(P.map (W 0)) ≠ 0) (str : L → String)
    {B : ℕ → ℕ} (hB : Tendsto B atTop atTop) {l : ℝ} (h0 : 0 < l) (h1 : l < 1) :
    ProbTends (P.prod normalDraws) (fun n => {z | ∃ C cis,
      causalContrast levels str (apoFit (F n z.1) levels dCol (List.ofFn fun j => c j n) (s n z.1) a .none).1 refs = .ok C ∧
      C.jointCis E (B n) z.2 l = .ok (.cis cis) ∧ cis.length = (contrastPairs levels refs.list []).length ∧
      ∀ (t : ℕ) (i j : Fin p), (contrastPairs levels refs.list [])[t]? = some ((i : ℕ), (j : ℕ)) →
        ∃ ci, cis[t]? = some ci ∧ ci.1 ≤ θ i - θ j ∧ θ i - θ j ≤ ci.2}) l := by
  have hne := contrastPairs_ne_nil hnd hrefs hsub (by rw [hl]; exact hp)
  have hbd : ∀ q ∈ contrastPairs levels refs.list [], q.1 < p ∧ q.2 < p ∧ q.1 ≠ q.2 := by
    rintro ⟨i, q⟩ hq
    obtain ⟨t, ref, g1, g2, g3, g4, -⟩ := (mem_contrastPairs_aux hnd hsub [] i q).1 hq
    rw [← hl]
    exact ⟨g3, (List.getElem?_eq_some_iff.1 g2).1, g4⟩
  have hp0 : 0 < p := by
    obtain ⟨q, hq⟩ := List.exists_mem_of_ne_nil _ hne
    exact (Nat.zero_le _).trans_lt (hbd q hq).1
  generalize hps : contrastPairs levels refs.list [] = ps at *
  have hpl : 0 < ps.length := List.length_pos_iff.2 hne
  let I : Fin ps.length → Fin p := fun t => ⟨(ps[t]).1, (hbd _ (List.getElem_mem _)).1⟩
  let J : Fin ps.length → Fin p := fun t => ⟨(ps[t]).2, (hbd _ (List.getElem_mem _)).2.1⟩
  have hIJ : ∀ t, I t ≠ J t := fun t e => (hbd _ (List.getElem_mem _)).2.2 (congrArg Fin.val e)
  have hd := fun t => (h.linear (I t)).sub hW (h.linear (J t)) (hv _ _ (hIJ t))
  choose X T U bad mX mT mU hX hT hU hbad hview using fun t => (hd t).view
  choose bf hbf hfit using h.fits
  choose Xl Tl Ul bl mXl mTl mUl hXl hTl hUl hbl hvl using fun j => (h.linear j).view
  obtain ⟨bc, hbc, hgood⟩ := (AsympLinear.concat hp0 h.linear).good
  let Bad : ℕ → Set Ω := fun n => (bc n ∪ ⋃ t, bad t n) ∪ ((⋃ j, bf j n) ∪ ⋃ j, bl j n)
  have hBad : Tendsto (fun n => P (Bad n)) atTop (𝓝 0) := by
    have hs' := (hbc.add (tendsto_finsetSum univ fun t _ => hbad t)).add
      ((tendsto_finsetSum univ fun j _ => hbf j).add (tendsto_finsetSum univ fun j _ => hbl j))
    simp only [Finset.sum_const_zero, add_zero] at hs'
    refine tendsto_zero_of_le (Eventually.of_forall fun n => ?_) hs'
    refine (measure_union_le _ _).trans (add_le_add ((measure_union_le _ _).trans (add_le_add le_rfl (measure_iUnion_fintype_le _ _)))
      ((measure_union_le _ _).trans (add_le_add (measure_iUnion_fintype_le _ _) (measure_iUnion_fintype_le _ _))))
  have hJ : JointLinear P W r (fun n ω C => causalContrast levels str
      (apoFit (F n ω) levels dCol (List.ofFn fun j => c j n) (s n ω) a .none).1 refs = .ok C) (fun t => θ (I t) - θ (J t))
      fun t w => φ (I t) w - φ (J t) w := by
    refine ⟨fun t => (hd t).inf, X, T, U, Bad, mX, mT, mU, hX, hT, hU, hBad, ?_⟩
    filter_upwards [hgood, eventually_all.2 hview, eventually_all.2 hfit, eventually_all.2 hvl, hm] with n hn hv1 hf hv2 hm' ω hω
    obtain ⟨A, a1, a2⟩ := hn ω fun h => hω (Or.inl (Or.inl h))
    have hok : ∀ j, (fit (F n ω) (c j n).spec (m j n ω) a).2 = .ok () := fun j =>
      hf j ω fun h => hω (Or.inr (Or.inl (Set.mem_iUnion.2 ⟨j, h⟩)))
    obtain ⟨As, g1, g2⟩ := (a1 ⟨r, A⟩).2 rfl
    obtain ⟨A', rfl⟩ : ∃ A' : Fin p → DynFW n, As = List.ofFn A' := by
      have hlen : As.length = p := by
        have := congrArg List.length g1
        simpa using this.symm
      subst hlen
      exact ⟨fun j => As[j], (List.ofFn_getElem).symm⟩
    rw [List.map_ofFn] at g1
    have hA' := fun j => congrFun (List.ofFn_injective g1) j
    rw [apoFit_subs hl (dCol := dCol) ha (hs n ω) hok hA' g2]
    have hready : ∀ j, Ready r (n : ℝ) (fit (F n ω) (c j n).spec (m j n ω) a).1 := fun j => by
      obtain ⟨m1, m2, m3⟩ := hm' j ω
      obtain ⟨A, b, q1, q2⟩ := fitted_one (hc j n).vars (hc j n).vsf m1 m2 (hok j) m3
      exact ⟨A, b, q1, q2 (hc j n).sens⟩
    obtain ⟨R, es, r1, -, -, r4, -, r6⟩ := causalContrast_ready (s := { s n ω with
        subs := some (List.ofFn fun j => (fit (F n ω) (c j n).spec (m j n ω) a).1), framework := some ⟨r, { fw := A }⟩ })
      hnd str hrefs hsub (by rw [hl]; exact hp) rfl rfl (by simp [hl]) (fun m hm => by
        obtain ⟨j, rfl⟩ := List.mem_ofFn.1 hm
        exact hready j)
    rw [hps] at r4 r6
    refine ⟨R, fun C => ?_, causalContrast_cluster r1, ?_⟩
    · rw [r1]
      exact ⟨fun h => (Except.ok.inj h).symm, fun h => by rw [h]⟩
    · apply List.ext_getElem
      · simp [r4]
      · intro t t1 t2
        rw [List.length_ofFn] at t2
        obtain ⟨mm, ref, b, e, q1, q2, q3, -, q5⟩ := r6 t (ps[t]).1 (ps[t]).2 (by rw [List.getElem?_eq_getElem t2])
        have hi : mm = (fit (F n ω) (c (I ⟨t, t2⟩) n).spec (m (I ⟨t, t2⟩) n ω) a).1 := by
          rw [List.getElem?_ofFn, dif_pos (show (ps[t]).1 < p from (I ⟨t, t2⟩).2)] at q1
          exact (Option.some.inj q1).symm
        have hj : ref = (fit (F n ω) (c (J ⟨t, t2⟩) n).spec (m (J ⟨t, t2⟩) n ω) a).1 := by
          rw [List.getElem?_ofFn, dif_pos (show (ps[t]).2 < p from (J ⟨t, t2⟩).2)] at q2
          exact (Option.some.inj q2).symm
        subst hi
        subst hj
        obtain ⟨Ai, i1, i2, i3, i4⟩ := hv2 (I ⟨t, t2⟩) ω fun h => hω (Or.inr (Or.inr (Set.mem_iUnion.2 ⟨_, h⟩)))
        obtain ⟨Aj, j1, j2, j3, j4⟩ := hv2 (J ⟨t, t2⟩) ω fun h => hω (Or.inr (Or.inr (Set.mem_iUnion.2 ⟨_, h⟩)))
        obtain ⟨D, d1, -, -, d4⟩ := hv1 ⟨t, t2⟩ ω fun h => hω (Or.inl (Or.inr (Set.mem_iUnion.2 ⟨_, h⟩)))
        obtain ⟨D', k1, -, -, k4⟩ := FW.sub_single i2 j2 i3 j3 i4 j4 rfl
        have hDD : D = D' := by
          rw [i1, j1] at d1
          have : ((⟨r, Ai⟩ : DynFW n).sub ⟨r, Aj⟩).toOption = some ⟨r, D⟩ := d1
          rw [k1] at this
          have := Option.some.inj this
          cases this
          rfl
        subst hDD
        have hb := q5.block (hready _) (hready _) i1 j1 i4 j4
        rw [k4] at d4
        have hb2 := List.singleton_inj.1 d4
        rw [List.getElem_ofFn]
        rw [← hb2, ← hb]
        exact (List.getElem?_eq_some_iff.1 q3).2
  refine (hJ.cover hW hr hpl E hB h0 h1).congr_on (B := fun _ => ∅) (by simp) (Eventually.of_forall fun n z _ => ?_)
  constructor
  · rintro ⟨C, cis, e1, e2, e3, e4⟩
    exact ⟨C, cis, e1, e2, e3, fun t => e4 t (I t) (J t) (by rw [List.getElem?_eq_getElem t.2]; rfl)⟩
  · rintro ⟨C, cis, e1, e2, e3, e4⟩
    refine ⟨C, cis, e1, e2, e3, fun t i j ht => ?_⟩
    obtain ⟨htl, hte⟩ := List.getElem?_eq_some_iff.1 ht
    have hi : I ⟨t, htl⟩ = i := Fin.ext (by show (ps[t]).1 = _; rw [hte])
    have hj : J ⟨t, htl⟩ = j := Fin.ext (by show (ps[t]).2 = _; rw [hte])
    have := e4 ⟨t, htl⟩
    rw [hi, hj] at this
    exact this

end Apos

end DML
