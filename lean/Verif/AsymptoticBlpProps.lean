import Verif.AsymptoticIrmProps
import Verif.LimitBlp
import Verif.LimitWeights

/-!
# Large-sample properties of best linear predictors of treatment effects (C82)
-/

namespace DML

open MeasureTheory ProbabilityTheory Filter Topology
open scoped ENNReal

variable {Ω : Type*} {mΩ : MeasurableSpace Ω} {S : Type*} [MeasurableSpace S] {𝒳 : Type*} [MeasurableSpace 𝒳] {Q : Type}
  {E : Ext} {P : Measure Ω} {W : ℕ → Ω → S} {r K p : ℕ} {tv : String} {y d : S → ℝ} {ξ : S → 𝒳} {enc : 𝒳 → List Cell}

/-! ## `cate` of a fitted object -/

/-- `psi_elements["psi_b"][:, k, j]` of an object with a linear score: the state keeps `psi = psi_a * coef + psi_b` and
`psi_deriv = psi_a` (/repo/doubleml/double_ml_score_mixins.py:35-40), from which `psi_b` is recovered; `none` if the object has not
been fitted. -/
def MState.psiB {n : ℕ} {M : Type} (t : MState n Q M) (j k : ℕ) : Option (Fin n → ℝ) :=
  match t.scores j k, (t.heap t.arr).coef j k with
  | some (psi, a), some c => some fun i => psi i - a i * c
  | _, _ => none

/-- `b` is the result of `cate(basis)` (`capo(basis)`; with `isGate` the call made by `gate`, `gapo`) for the fitted object `t` with
an admissible score (/repo/doubleml/irm/irm.py:487-497, irm/apo.py:477-487). -/
def IsCate {n : ℕ} (ols : Ols) (t : LinState n Q) (names : List String) (basis : Fin n → Fin p → ℝ) (isGate : Bool) (b : Blp n p) : Prop :=
  ∃ s, t.psiB 0 0 = some s ∧ irmCate ols t.nRep s names basis isGate = .ok b

/-- Least squares are used whenever the regressors have full column rank; otherwise nothing is assumed. -/
def OlsSpec (ols : Ols) : Prop :=
  ∀ {n p : ℕ} (s : Fin n → ℝ) (X : Fin n → Fin p → ℝ), FullRank X → LeastSquares s X (ols s X)

/-- The large-sample properties of the best linear predictors returned by the calls `call n` at the row `v` of a basis, with true value `θ`
and asymptotic standard deviation `σ`. -/
structure BlpLimit (P : Measure Ω) (call : ∀ n, Ω → Blp n p → Prop) (names : List String) (isGate : Bool) (v : Fin p → ℝ)
    (θ σ : ℝ) : Prop where
  /-- `√n (prediction - θ) / σ` is asymptotically standard normal -/
  normal : ∀ x, ProbTends P (fun n => {ω | ∃ b o, call n ω b ∧ b.model = some o ∧
    Real.sqrt n * (o.predict v - θ) / σ ≤ x}) (Phi x)
  /-- `√n` times the standard error converges to `σ` in probability -/
  scale : ∀ ε, 0 < ε → ProbTends P (fun n => {ω | ∃ b o, call n ω b ∧ b.model = some o ∧
    |Real.sqrt n * o.se v - σ| < ε}) 1
  /-- `confint(basis, level=l)` covers `θ` with probability tending to the level -/
  cover : ∀ l, 0 < l → l < 1 → ∀ (B : ℤ), 1 ≤ B → ∀ q (rows : Fin q → Fin p → ℝ) (i : Fin q), rows i = v →
    ProbTends P (fun n => {ω | ∃ b T, call n ω b ∧
      (∀ root z, b.confint root z (.given q names rows) (.bool false) (.float l) (.int B) = .ok ⟨q, none, T⟩) ∧ (T i).1 ≤ θ ∧ θ ≤ (T i).2.2}) l
  /-- `confint(basis, level=l)` covers any other value with vanishing probability -/
  exclude : ∀ l, 0 < l → l < 1 → ∀ (B : ℤ), 1 ≤ B → ∀ q (rows : Fin q → Fin p → ℝ) (i : Fin q), rows i = v → ∀ u, u ≠ θ →
    ProbTends P (fun n => {ω | ∃ b T, call n ω b ∧
      (∀ root z, b.confint root z (.given q names rows) (.bool false) (.float l) (.int B) = .ok ⟨q, none, T⟩) ∧ (T i).1 ≤ u ∧ u ≤ (T i).2.2}) 0
  /-- for groups, `confint(level=l)` covers the value of a group with probability tending to the level -/
  gate : isGate = true → ∀ l, 0 < l → l < 1 → ∀ (B : ℤ), 1 ≤ B → ∀ (j : Fin p), (v = fun k => if j = k then 1 else 0) →
    ProbTends P (fun n => {ω | ∃ b T, call n ω b ∧
      (∀ root z, b.confint root z .none (.bool false) (.float l) (.int B) = .ok ⟨p, some names, T⟩) ∧ (T j).1 ≤ θ ∧ θ ≤ (T j).2.2}) l
  /-- for groups, `confint(level=l)` covers any other value with vanishing probability -/
  gateExclude : isGate = true → ∀ l, 0 < l → l < 1 → ∀ (B : ℤ), 1 ≤ B → ∀ (j : Fin p), (v = fun k => if j = k then 1 else 0) → ∀ u, u ≠ θ →
    ProbTends P (fun n => {ω | ∃ b T, call n ω b ∧
      (∀ root z, b.confint root z .none (.bool false) (.float l) (.int B) = .ok ⟨p, some names, T⟩) ∧ (T j).1 ≤ u ∧ u ≤ (T j).2.2}) 0
  /-- otherwise `confint(level=l)` covers a coefficient with probability tending to `(1 + l) / 2`, *not* to the level -/
  coef : isGate = false → ∀ l, 0 < l → l < 1 → ∀ (B : ℤ), 1 ≤ B → ∀ (j : Fin p), (v = fun k => if j = k then 1 else 0) →
    ProbTends P (fun n => {ω | ∃ b T, call n ω b ∧
      (∀ root z, b.confint root z .none (.bool false) (.float l) (.int B) = .ok ⟨p, some names, T⟩) ∧ (T j).1 ≤ θ ∧ θ ≤ (T j).2.2}) ((1 + l) / 2)

/-- The large-sample properties of the best linear predictors of the models `t n` at the row `v` of a basis, with true value `θ`
and asymptotic standard deviation `σ`. -/
def BlpValid (ols : Ols) (P : Measure Ω) (t : ∀ n, Ω → LinState n Q) (names : List String)
    (basis : ∀ n, Ω → Fin n → Fin p → ℝ) (isGate : Bool) (v : Fin p → ℝ) (θ σ : ℝ) : Prop :=
  BlpLimit P (fun n ω => IsCate ols (t n ω) names (basis n ω) isGate) names isGate v θ σ

/-- Events that agree outside sets of vanishing probability. -/
theorem ProbTends.congr_off [IsProbabilityMeasure P] {A A' B : ℕ → Set Ω} {a : ℝ} (h : ProbTends P A' a)
    (hB : Tendsto (fun n => P (B n)) atTop (𝓝 0)) (hA : ∀ᶠ n in atTop, ∀ ω, ω ∉ B n → (ω ∈ A n ↔ ω ∈ A' n)) : ProbTends P A a := by
  refine ⟨measureReal_congr_on h.1 hB hA, measureReal_congr_on h.2 hB ?_⟩
  filter_upwards [hA] with n hn ω hω
  exact not_congr (hn ω hω)

/-- Events that agree. -/
theorem ProbTends.congr {A A' : ℕ → Set Ω} {a : ℝ} (h : ProbTends P A' a) (hA : ∀ n ω, ω ∈ A n ↔ ω ∈ A' n) : ProbTends P A a := by
  obtain rfl : A = A' := funext fun n => Set.ext (hA n)
  exact h

/-- Intervals of shrinking length around a consistent estimate miss other values. -/
theorem RepLimit.exclude [IsProbabilityMeasure P] {Z : ℕ → Ω → ℝ} {σ θ : ℝ} {X T : ℕ → Ω → ℝ} (h : RepLimit P Z σ θ X T)
    (hZ : NormalLimit P Z) (q : ℝ) {u : ℝ} (hu : u ≠ θ) :
    ProbTends P (fun n => {ω | X n ω - q * T n ω ≤ u ∧ u ≤ X n ω + q * T n ω}) 0 := by
  have h1 : oP P fun n ω => X n ω - θ := OP.of_root ((h.linear.bdd.add ((OP_const (P := P) σ).mul hZ.bdd)).mono
    (Eventually.of_forall fun n ω => by simp))
  have h2 : oP P T := OP.of_root (OP_of_sub h.scale)
  have h3 := h1.abs.add (h2.abs.const_mul |q|)
  refine ProbTends.of_close (A' := fun _ => ∅) (fun n => MeasurableSet.empty) (by simp) (h3 |u - θ| (abs_pos.2 (sub_ne_zero.2 hu)))
    (Eventually.of_forall fun n ω hω => ?_)
  simp only [Set.mem_ofPred_eq, not_le] at hω
  simp only [Set.mem_ofPred_eq, Set.mem_empty_iff_false, iff_false]
  rintro ⟨h4, h5⟩
  refine absurd hω (not_lt.2 ?_)
  refine le_trans ?_ (le_abs_self _)
  rw [← abs_mul]
  have h6 := abs_le.1 (le_refl |q * T n ω|)
  have h7 := abs_le.1 (le_refl |X n ω - θ|)
  refine abs_le.2 ⟨?_, ?_⟩ <;> linarith [h6.1, h6.2, h7.1, h7.2]

/-- From regressions to the properties of the best linear predictors. -/
theorem blpLimit_of [IsProbabilityMeasure P] {call : ∀ n, Ω → Blp n p → Prop} {names : List String} {isGate : Bool} {v : Fin p → ℝ}
    {θ σ : ℝ} {Z : ℕ → Ω → ℝ} {X : ∀ n, Ω → Fin n → Fin p → ℝ} {s : ∀ n, Ω → Fin n → ℝ} {o : ℕ → Ω → OlsRes p}
    (hZ : NormalLimit P Z) (hZm : ∀ n, Measurable (Z n)) (hσ : 0 < σ)
    (hR : RepLimit P Z σ θ (fun n ω => (o n ω).predict v) fun n ω => (o n ω).se v)
    {bad : ℕ → Set Ω} (hbad : Tendsto (fun n => P (bad n)) atTop (𝓝 0))
    (key : ∀ᶠ n in atTop, ∀ ω, ω ∉ bad n → ∀ b, call n ω b ↔ b = ⟨s n ω, names, X n ω, isGate, some (o n ω)⟩) :
    BlpLimit P call names isGate v θ σ := by
  have hcov : ∀ c', 0 < c' → ∀ l, Phi c' - Phi (-c') = l → ∀ u,
      ProbTends P (fun n => {ω | (o n ω).predict v - c' * (o n ω).se v ≤ u ∧
        u ≤ (o n ω).predict v + c' * (o n ω).se v}) (if u = θ then l else 0) := fun c' h0 l hl u => by
    by_cases hu : u = θ
    · subst hu
      have := hR.cover hZ hZm hσ h0
      rw [Phi_neg] at hl
      rwa [if_pos rfl, ← show 2 * Phi c' - 1 = l by linarith]
    · rw [if_neg hu]
      exact hR.exclude hZ c' hu
  have hrow : ∀ l, 0 < l → l < 1 → ∀ (B : ℤ), 1 ≤ B → ∀ q (rows : Fin q → Fin p → ℝ) (i : Fin q), rows i = v → ∀ u,
      ProbTends P (fun n => {ω | ∃ b T, call n ω b ∧ (∀ root z, b.confint root z (.given q names rows) (.bool false) (.float l) (.int B) =
        .ok ⟨q, none, T⟩) ∧ (T i).1 ≤ u ∧ u ≤ (T i).2.2}) (if u = θ then l else 0) := fun l h0 h1 B hB q rows i hv u => by
    obtain ⟨c', hc0, hc1, -⟩ := C46_pointwise_partial (n := 0) (d := p) ⟨fun _ => 0, names, fun _ _ => 0, isGate, some ⟨fun _ => 0, fun _ _ => 0⟩⟩ _ rfl (fun _ _ _ => 0) (fun _ _ _ => 0) l h0 h1 B hB
    refine (hcov c' hc0 l hc1 u).congr_off hbad ?_
    filter_upwards [key] with n hk ω hω
    have : ∀ root z, (⟨s n ω, names, X n ω, isGate, some (o n ω)⟩ : Blp n p).confint root z (.given q names rows) (.bool false) (.float l) (.int B) =
        .ok ⟨q, none, fun i => ((o n ω).predict (rows i) - c' * (o n ω).se (rows i), (o n ω).predict (rows i),
          (o n ω).predict (rows i) + c' * (o n ω).se (rows i))⟩ := fun root z => by
      obtain ⟨c2, hd0, hd1, hd2, -⟩ := C46_pointwise_partial ⟨s n ω, names, X n ω, isGate, some (o n ω)⟩ _ rfl root z l h0 h1 B hB
      have ec : c2 = c' := by
        rw [Phi_neg] at hc1 hd1
        exact Phi_strictMono.injective (by linarith)
      subst ec
      exact hd2 q rows
    simp only [hk ω hω, forall_const, exists_and_left, exists_eq_left, this, Except.ok.injEq, CiTable.mk.injEq, heq_eq_eq, true_and,
      exists_eq_left', hv]
  have hgate : isGate = true → ∀ l, 0 < l → l < 1 → ∀ (B : ℤ), 1 ≤ B → ∀ (j : Fin p), (v = fun k => if j = k then 1 else 0) → ∀ u,
      ProbTends P (fun n => {ω | ∃ b T, call n ω b ∧ (∀ root z, b.confint root z .none (.bool false) (.float l) (.int B) =
        .ok ⟨p, some names, T⟩) ∧ (T j).1 ≤ u ∧ u ≤ (T j).2.2}) (if u = θ then l else 0) := fun hg l h0 h1 B hB j hv u => by
    obtain ⟨c', hc0, hc1, -⟩ := C46_pointwise_partial (n := 0) (d := p) ⟨fun _ => 0, names, fun _ _ => 0, isGate, some ⟨fun _ => 0, fun _ _ => 0⟩⟩ _ rfl (fun _ _ _ => 0) (fun _ _ _ => 0) l h0 h1 B hB
    refine (hcov c' hc0 l hc1 u).congr_off hbad ?_
    filter_upwards [key] with n hk ω hω
    have : ∀ root z, (⟨s n ω, names, X n ω, isGate, some (o n ω)⟩ : Blp n p).confint root z .none (.bool false) (.float l) (.int B) =
        .ok ⟨p, some names, fun j => ((o n ω).params j - c' * (o n ω).bse j, (o n ω).params j, (o n ω).params j + c' * (o n ω).bse j)⟩ :=
        fun root z => by
      obtain ⟨c2, hd0, hd1, -, hd2⟩ := C46_pointwise_partial ⟨s n ω, names, X n ω, isGate, some (o n ω)⟩ _ rfl root z l h0 h1 B hB
      have ec : c2 = c' := by
        rw [Phi_neg] at hc1 hd1
        exact Phi_strictMono.injective (by linarith)
      subst ec
      exact hd2 hg
    simp only [hk ω hω, forall_const, exists_and_left, exists_eq_left, this, Except.ok.injEq, CiTable.mk.injEq, heq_eq_eq, true_and,
      exists_eq_left', hv, predict_unit, se_unit]
  refine ⟨fun u => ?_, fun ε hε => ?_, fun l h0 h1 B hB q rows i hv => ?_, fun l h0 h1 B hB q rows i hv u hu => ?_,
    fun hg l h0 h1 B hB j hv => ?_, fun hg l h0 h1 B hB j hv u hu => ?_, fun hg l h0 h1 B hB j hv => ?_⟩
  · refine (hR.normal hZ hZm hσ u).congr_off hbad ?_
    filter_upwards [key] with n hk ω hω
    simp only [hk ω hω, exists_and_left, exists_eq_left, Option.some.injEq, exists_eq_left']
  · refine (hR.scale.probTends hε).congr_off hbad ?_
    filter_upwards [key] with n hk ω hω
    simp only [hk ω hω, exists_and_left, exists_eq_left, Option.some.injEq, exists_eq_left']
  · simpa only [if_true] using hrow l h0 h1 B hB q rows i hv θ
  · simpa only [if_neg hu] using hrow l h0 h1 B hB q rows i hv u
  · simpa only [if_true] using hgate hg l h0 h1 B hB j hv θ
  · simpa only [if_neg hu] using hgate hg l h0 h1 B hB j hv u
  · obtain ⟨c', hc0, hc1, -⟩ := C46_coefficients (n := 0) (d := p) ⟨fun _ => 0, names, fun _ _ => 0, isGate, some ⟨fun _ => 0, fun _ _ => 0⟩⟩ _ rfl hg (fun _ _ _ => 0) (fun _ _ _ => 0) false l h0 h1 B hB
    refine (show ProbTends P _ ((1 + l) / 2) by simpa only [if_true] using hcov c' hc0 _ hc1 θ).congr_off hbad ?_
    filter_upwards [key] with n hk ω hω
    have : ∀ root z, (⟨s n ω, names, X n ω, isGate, some (o n ω)⟩ : Blp n p).confint root z .none (.bool false) (.float l) (.int B) =
        .ok ⟨p, some names, fun j => ((o n ω).params j - c' * (o n ω).bse j, (o n ω).params j, (o n ω).params j + c' * (o n ω).bse j)⟩ :=
        fun root z => by
      obtain ⟨c2, hd0, hd1, hd2⟩ := C46_coefficients ⟨s n ω, names, X n ω, isGate, some (o n ω)⟩ _ rfl hg root z false l h0 h1 B hB
      have ec : c2 = c' := by
        rw [Phi_neg] at hc1 hd1
        exact Phi_strictMono.injective (by linarith)
      subst ec
      exact hd2
    simp only [hk ω hω, forall_const, exists_and_left, exists_eq_left, this, Except.ok.injEq, CiTable.mk.injEq, heq_eq_eq, true_and,
      exists_eq_left', hv, predict_unit, se_unit]

/-- From fitted signals to the properties of the best linear predictors. -/
theorem blpValid_of [IsProbabilityMeasure P] {ols : Ols} (hols : OlsSpec ols) {x : S → Fin p → ℝ} {s0 : S → ℝ} {β : Fin p → ℝ} {C : ℝ}
    {s : ∀ n, Ω → Fin n → ℝ} (hW : Iid P W) (h : OlsLaw (P.map (W 0)) x s0 β C) (hs : OlsSignal P W x s0 s)
    {t : ∀ n, Ω → LinState n Q} {bad : ℕ → Set Ω} (hbad : Tendsto (fun n => P (bad n)) atTop (𝓝 0))
    (ht : ∀ᶠ n in atTop, ∀ ω, ω ∉ bad n → (t n ω).nRep = 1 ∧ (t n ω).psiB 0 0 = some (s n ω))
    {names : List String} (hn : names.Nodup) (isGate : Bool) {v c : Fin p → ℝ}
    (hc : ∀ j, v j = ∑ k, (∫ w, x w j * x w k ∂(P.map (W 0))) * c k) {σ : ℝ} (hσ : 0 < σ)
    (hV : σ ^ 2 = ∫ w, ((∑ k, c k * x w k) * (s0 w - ∑ k, x w k * β k)) ^ 2 ∂(P.map (W 0))) :
    BlpValid ols P t names (fun _ ω i j => x (W i ω) j) isGate v (∑ j, v j * β j) σ := by
  set o : ℕ → Ω → OlsRes p := fun _ ω => ols (s _ ω) fun i j => x (W i ω) j
  have ho : Regress W x s o := fun _ _ hf => hols _ _ hf
  obtain ⟨hZ, hZm, hR⟩ := ols_limit hW h hs ho hc hσ hV
  have key : ∀ᶠ n in atTop, ∀ ω, ω ∉ bad n → ∀ b, IsCate ols (t n ω) names (fun i j => x (W i ω) j) isGate b ↔
      b = ⟨s n ω, names, fun i j => x (W i ω) j, isGate, some (o n ω)⟩ := by
    filter_upwards [ht] with n hn' ω hω b
    obtain ⟨h1, h2⟩ := hn' ω hω
    have e : irmCate ols (t n ω).nRep (s n ω) names (fun (i : Fin n) j => x (W i ω) j) isGate =
        .ok ⟨s n ω, names, fun i j => x (W i ω) j, isGate, some (o n ω)⟩ := by
      unfold irmCate blpCreate
      rw [h1, if_neg (by simp), if_pos hn]
      rfl
    unfold IsCate
    rw [h2]
    constructor
    · rintro ⟨s', e1, e2⟩
      obtain rfl := Option.some.inj e1
      rw [e] at e2
      exact (Except.ok.inj e2).symm
    · rintro rfl
      exact ⟨_, rfl, e⟩
  exact blpLimit_of hZ hZm hσ hR hbad key

/-! ## The signal of a fitted object -/

theorem fit_nRep {n : ℕ} {M : Type} {F : Frame n} {sp : Spec n Q M} {s : MState n Q M} {a : FitArgs} (h : (fit F sp s a).2 = .ok ()) :
    (fit F sp s a).1.nRep = s.nRep := by
  obtain ⟨p, m, fw, -, -, -, e⟩ := fit_ok h
  rw [e]
  exact ((initFit_frame sp s p m).trans (fitLoop_frame F sp a.ext p m _ _)).settings.nRep

theorem fit_signal {n : ℕ} {M : Type} {F : Frame n} {sp : Spec n Q M} {s : MState n Q M} {a : FitArgs} (h : (fit F sp s a).2 = .ok ())
    {j k : ℕ} (hj : j < s.data.d.length) (hk : k < s.nRep) : ∃ c o, CellFrom F sp s a.ext k j c ∧ sp.est c = .ok o ∧
      (fit F sp s a).1.psiB j k = some fun i => o.fit.psi i - o.fit.deriv i * o.fit.coef := by
  obtain ⟨p, m, fw, hc, -, -, -⟩ := fit_ok h
  obtain ⟨hp, hm⟩ := checkFit_ok hc
  obtain ⟨c, o, l, h1, -, h2, -, h3, -, h4, -⟩ := fit_cells h hp hm hj hk
  refine ⟨c, o, h1, h2, ?_⟩
  unfold MState.psiB
  rw [h4, h3]

/-- What is known about the fits of a study. -/
theorem Study.runs {sp : ∀ n, LinSpec n Q} (H : Study E P W r K sp tv y d ξ enc) (hvars : ∀ n, (sp n).vars = none) :
    ∀ᶠ n in atTop, ∀ ω, (H.obj n ω).nRep = r ∧ (H.obj n ω).data.d.length = 1 ∧
      ∀ (q : Fin r) c, CellFrom (H.F n ω) (sp n) (H.obj n ω) H.args.ext q 0 c → H.Run n ω q c := by
  filter_upwards [H.reached, H.smpls, H.split, H.params, H.outcome, H.treatment, H.covariates] with n h1 h2 h3 h4 h5 h6 h7 ω
  obtain ⟨g1, g2⟩ := (h1 ω).ready (hvars n)
  have hd : (H.obj n ω).data.d = [tv] := by rw [g2]; exact (h1 ω).1
  refine ⟨(g1.split _ (h2 ω)).1.symm.trans (h3 ω).1, by rw [hd]; rfl, fun q c hc => ?_⟩
  have ht : c.treat = tv := by
    have := hc.treat
    rw [hd] at this
    exact (Option.some.inj this).symm
  have hdata : c.data = H.D n ω := by
    rw [hc.data, g2]
    unfold activeData
    rw [if_neg (by rw [(h1 ω).1]; simp)]
  have hsm : (H.splitsAt n ω)[(q : ℕ)]? = some c.smpls := by
    obtain ⟨l, e1, e2⟩ := hc.smpls
    rw [h2 ω] at e1
    have e3 : H.splitsAt n ω = l := Option.some.inj e1
    rw [e3]
    exact e2
  refine ⟨hc, ht, hdata, fun l => ?_, (h3 ω).2 _ (List.mem_of_getElem? hsm), hsm, h2 ω, h4 ω, fun i => ?_, fun i => ?_, fun i => ?_⟩
  · rw [H.noExt] at hc
    exact extOf_none hc l
  · show (c.data.yv i).val = _
    rw [hdata, h5 ω i]
    rfl
  · show (c.data.dv i).val = _
    rw [hdata, h6 ω i]
    rfl
  · rw [hdata, h7 ω i]

/-- The signal of the fits of a study with one repetition. -/
theorem Study.signal {sp : ∀ n, LinSpec n Q} (H : Study E P W 1 K sp tv y d ξ enc) (hvars : ∀ n, (sp n).vars = none) {bad : ℕ → Set Ω}
    (hok : ∀ᶠ n in atTop, ∀ ω, ω ∉ bad n → (fit (H.F n ω) (sp n) (H.obj n ω) H.args).2 = .ok ()) {b : ∀ n, Ω → Fin n → ℝ}
    (hcell : ∀ n ω, ω ∉ bad n → ∀ c o, H.Run n ω 0 c → (sp n).est c = .ok o →
      ∃ e : PsiElems n, o.fit = e.fit none ∧ e.b = b n ω) :
    ∀ᶠ n in atTop, ∀ ω, ω ∉ bad n → (H.fitted n ω).nRep = 1 ∧ (H.fitted n ω).psiB 0 0 = some (b n ω) := by
  filter_upwards [H.runs hvars, hok] with n h1 h2 ω hω
  obtain ⟨g1, g2, g3⟩ := h1 ω
  refine ⟨(fit_nRep (h2 ω hω)).trans g1, ?_⟩
  obtain ⟨c, o, k1, k2, k3⟩ := fit_signal (h2 ω hω) (j := 0) (k := 0) (by omega) (by omega)
  obtain ⟨e, he, hb⟩ := hcell n ω hω c o (g3 0 c k1) k2
  unfold Study.fitted
  rw [k3, he, ← hb]
  refine congrArg some (funext fun i => ?_)
  exact add_sub_cancel_left _ _

/-! ## Groups -/

/-- `B` is the result of `gate(groups)` (`gapo(groups)`) for the fitted object `t`: the columns of the groups and the best linear
predictor (/repo/doubleml/irm/irm.py:499-534, irm/apo.py:489-524). -/
def IsGate {n : ℕ} (ols : Ols) (t : LinState n Q) (g : GArg n) (B : Σ cols : List (String × GCol n), Blp n cols.length) : Prop :=
  ∃ s, t.psiB 0 0 = some s ∧ irmGate ols t.nRep s g = .ok B

/-- The large-sample properties of the effect of group `j` reported by the calls `call n` for groups with the columns `names`: `θ` is the
true effect and `σ` the asymptotic standard deviation. -/
structure GateLimit (P : Measure Ω) (call : ∀ n, Ω → (Σ cols : List (String × GCol n), Blp n cols.length) → Prop) (names : List String)
    (j : Fin names.length) (θ σ : ℝ) : Prop where
  /-- `√n (effect - θ) / σ` is asymptotically standard normal -/
  normal : ∀ x, ProbTends P (fun n => {ω | ∃ B, call n ω B ∧ ∃ o, B.2.model = some o ∧
    ∃ h : (j : ℕ) < B.1.length, Real.sqrt n * (o.params ⟨j, h⟩ - θ) / σ ≤ x}) (Phi x)
  /-- `√n` times the standard error converges to `σ` in probability -/
  scale : ∀ ε, 0 < ε → ProbTends P (fun n => {ω | ∃ B, call n ω B ∧ ∃ o, B.2.model = some o ∧
    ∃ h : (j : ℕ) < B.1.length, |Real.sqrt n * o.bse ⟨j, h⟩ - σ| < ε}) 1
  /-- `confint(level=l)` covers `θ` with probability tending to the level -/
  cover : ∀ l, 0 < l → l < 1 → ∀ (R : ℤ), 1 ≤ R → ProbTends P (fun n => {ω | ∃ B, call n ω B ∧
    ∃ T, (∀ root z, B.2.confint root z .none (.bool false) (.float l) (.int R) = .ok ⟨names.length, some names, T⟩) ∧
      (T j).1 ≤ θ ∧ θ ≤ (T j).2.2}) l
  /-- `confint(level=l)` covers any other value with vanishing probability -/
  exclude : ∀ l, 0 < l → l < 1 → ∀ (R : ℤ), 1 ≤ R → ∀ u, u ≠ θ → ProbTends P (fun n => {ω | ∃ B, call n ω B ∧
    ∃ T, (∀ root z, B.2.confint root z .none (.bool false) (.float l) (.int R) = .ok ⟨names.length, some names, T⟩) ∧
      (T j).1 ≤ u ∧ u ≤ (T j).2.2}) 0

/-- The large-sample properties of the effect of group `j` reported for the models `t n`: the data frame `groups n ω` has the
columns `names`, `θ` is the true effect and `σ` the asymptotic standard deviation. -/
def GateValid (ols : Ols) (P : Measure Ω) (t : ∀ n, Ω → LinState n Q) (names : List String) (groups : ∀ n, Ω → GArg n)
    (j : Fin names.length) (θ σ : ℝ) : Prop :=
  GateLimit P (fun n ω => IsGate ols (t n ω) (groups n ω)) names j θ σ

/-- A data frame of boolean columns. -/
def boolFrame {n : ℕ} (gr : List (String × (Fin n → Bool))) : GArg n := .frame (gr.map fun g => (g.1, .bool g.2))

theorem gateGroups_bool {n : ℕ} {gr : List (String × (Fin n → Bool))} (h : gr ≠ []) :
    gateGroups (boolFrame gr) = .ok (gr.map fun g => (g.1, .bool g.2)) := by
  obtain ⟨a, l, rfl⟩ := List.exists_cons_of_ne_nil h
  unfold boolFrame gateGroups
  dsimp only
  rw [if_neg]
  simp [GCol.isBool, GCol.isInt]

/-- `gate` is `cate` for the matrix of the groups. -/
theorem isGate_iff {n : ℕ} {ols : Ols} {t : LinState n Q} {g : GArg n} {cols : List (String × GCol n)} (hg : gateGroups g = .ok cols)
    (hp : cols.length = p) {basis : Fin n → Fin p → ℝ} (hb : ∀ i (j : Fin cols.length), basis i (Fin.cast hp j) = colMatrix cols i j)
    (Φ : ∀ q, Blp n q → Prop) :
    (∃ B, IsGate ols t g B ∧ Φ _ B.2) ↔ ∃ b, IsCate ols t (cols.map Prod.fst) basis true b ∧ Φ p b := by
  subst hp
  obtain rfl : basis = colMatrix cols := funext fun i => funext fun j => hb i j
  have key : ∀ s B, irmGate ols t.nRep s g = .ok B ↔
      ∃ b, irmCate ols t.nRep s (cols.map Prod.fst) (colMatrix cols) true = .ok b ∧ B = ⟨cols, b⟩ := fun s B => by
    unfold irmGate
    simp only [Bind.bind, Except.bind, hg, Pure.pure, Except.pure]
    cases e : irmCate ols t.nRep s (cols.map Prod.fst) (colMatrix cols) true with
    | error x => simp
    | ok b =>
      simp only [Except.ok.injEq, exists_eq_left']
      exact eq_comm
  constructor
  · rintro ⟨B, ⟨s, h1, h2⟩, h3⟩
    obtain ⟨b, h4, rfl⟩ := (key s B).1 h2
    exact ⟨b, ⟨s, h1, h4⟩, h3⟩
  · rintro ⟨b, ⟨s, h1, h2⟩, h3⟩
    exact ⟨⟨cols, b⟩, ⟨s, h1, (key s _).2 ⟨b, h2, rfl⟩⟩, h3⟩

/-- The value of the indicator of a group. -/
def bit (b : Bool) : ℝ := if b then 1 else 0

/-- From best linear predictors to groups. -/
theorem BlpLimit.groups {names : List String} {call : ∀ n, Ω → Blp n names.length → Prop}
    {callG : ∀ n, Ω → (Σ cols : List (String × GCol n), Blp n cols.length) → Prop} (j : Fin names.length) {θ σ : ℝ}
    (h : BlpLimit P call names true (fun k => if j = k then 1 else 0) θ σ)
    (key : ∀ n ω (Φ : ∀ q, Blp n q → Prop), (∃ B, callG n ω B ∧ Φ _ B.2) ↔ ∃ b, call n ω b ∧ Φ names.length b) :
    GateLimit P callG names j θ σ := by
  refine ⟨fun x => ?_, fun ε hε => ?_, fun l h0 h1 R hR => ?_, fun l h0 h1 R hR u hu => ?_⟩
  · refine (h.normal x).congr fun n ω => ?_
    refine ((key n ω fun q b => ∃ o, b.model = some o ∧ ∃ h : (j : ℕ) < q, Real.sqrt n * (o.params ⟨j, h⟩ - θ) / σ ≤ x)).trans ?_
    simp only [Set.mem_ofPred_eq, exists_and_left, predict_unit]
    refine exists_congr fun b => and_congr_right fun _ => exists_congr fun o => and_congr_right fun _ => ?_
    exact ⟨fun h => h.2, fun h => ⟨j.2, h⟩⟩
  · refine (h.scale ε hε).congr fun n ω => ?_
    refine ((key n ω fun q b => ∃ o, b.model = some o ∧ ∃ h : (j : ℕ) < q, |Real.sqrt n * o.bse ⟨j, h⟩ - σ| < ε)).trans ?_
    simp only [Set.mem_ofPred_eq, exists_and_left, se_unit]
    refine exists_congr fun b => and_congr_right fun _ => exists_congr fun o => and_congr_right fun _ => ?_
    exact ⟨fun h => h.2, fun h => ⟨j.2, h⟩⟩
  · refine (h.gate rfl l h0 h1 R hR j rfl).congr fun n ω => ?_
    refine ((key n ω fun q b => ∃ T, (∀ root z, b.confint root z .none (.bool false) (.float l) (.int R) =
      .ok ⟨names.length, some names, T⟩) ∧ (T j).1 ≤ θ ∧ θ ≤ (T j).2.2)).trans ?_
    simp only [Set.mem_ofPred_eq, exists_and_left]
  · refine (h.gateExclude rfl l h0 h1 R hR j rfl u hu).congr fun n ω => ?_
    refine ((key n ω fun q b => ∃ T, (∀ root z, b.confint root z .none (.bool false) (.float l) (.int R) =
      .ok ⟨names.length, some names, T⟩) ∧ (T j).1 ≤ u ∧ u ≤ (T j).2.2)).trans ?_
    simp only [Set.mem_ofPred_eq, exists_and_left]

omit [MeasurableSpace S] [MeasurableSpace 𝒳] in
/-- From best linear predictors to groups. -/
theorem BlpValid.groups {ols : Ols} {t : ∀ n, Ω → LinState n Q} {names : List String} {gr : 𝒳 → Fin names.length → Bool}
    (j : Fin names.length) {θ σ : ℝ}
    (h : BlpValid ols P t names (fun _ ω i j => bit (gr (ξ (W i ω)) j)) true (fun k => if j = k then 1 else 0) θ σ) :
    GateValid ols P t names (fun n ω => boolFrame (List.ofFn fun k => (names[k], fun i : Fin n => gr (ξ (W i ω)) k))) j θ σ := by
  have hne : ∀ n ω, (List.ofFn fun k : Fin names.length => (names[k], fun i : Fin n => gr (ξ (W i ω)) k)) ≠ [] := fun n ω e => by
    have := congrArg List.length e
    rw [List.length_ofFn, List.length_nil] at this
    exact absurd j.2 (by omega)
  have key : ∀ n ω (Φ : ∀ q, Blp n q → Prop),
      (∃ B, IsGate ols (t n ω) (boolFrame (List.ofFn fun k => (names[k], fun i : Fin n => gr (ξ (W i ω)) k))) B ∧ Φ _ B.2) ↔
      ∃ b, IsCate ols (t n ω) names (fun i j => bit (gr (ξ (W i ω)) j)) true b ∧ Φ names.length b := fun n ω Φ => by
    rw [isGate_iff (gateGroups_bool (hne n ω)) (p := names.length) (by simp) (basis := fun i j => bit (gr (ξ (W i ω)) j)) (fun i k => ?_) Φ]
    · have : List.map Prod.fst (List.map (fun g : String × (Fin n → Bool) => (g.1, GCol.bool g.2))
          (List.ofFn fun k : Fin names.length => (names[k], fun i : Fin n => gr (ξ (W i ω)) k))) = names := by
        rw [List.map_map, List.map_ofFn]
        exact List.ofFn_getElem ..
      rw [this]
    · unfold colMatrix
      simp [GCol.values, bit]
      rfl
  exact BlpLimit.groups j h key

section Cells

variable {μ : Measure S} [IsProbabilityMeasure μ] {G : S → Fin p → Bool}

omit [IsProbabilityMeasure μ] in
theorem integral_bit (hG : ∀ j, Measurable fun w => G w j) (j : Fin p) (f : S → ℝ) :
    ∫ w, bit (G w j) * f w ∂μ = ∫ w in {w | G w j = true}, f w ∂μ := by
  have hs : MeasurableSet {w | G w j = true} := hG j (measurableSet_singleton true)
  rw [← integral_indicator hs]
  refine integral_congr_ae (Eventually.of_forall fun w => ?_)
  by_cases h : G w j = true <;> simp [Set.indicator, bit, h]

theorem integral_bit_one (hG : ∀ j, Measurable fun w => G w j) (j : Fin p) : ∫ w, bit (G w j) ∂μ = μ.real {w | G w j = true} := by
  have := integral_bit (μ := μ) hG j fun _ => 1
  simpa using this

omit [MeasurableSpace S] in
theorem bit_mul (hex : ∀ w j k, G w j = true → G w k = true → j = k) (w : S) (j k : Fin p) :
    bit (G w j) * bit (G w k) = if j = k then bit (G w j) else 0 := by
  by_cases h : j = k
  · subst h
    cases G w j <;> simp [bit]
  · rw [if_neg h]
    cases h1 : G w j <;> cases h2 : G w k <;> simp [bit]
    exact h (hex w j k h1 h2)

omit [MeasurableSpace S] in
theorem bit_sum (hex : ∀ w j k, G w j = true → G w k = true → j = k) (w : S) (j : Fin p) (u : Fin p → ℝ) :
    bit (G w j) * ∑ k, bit (G w k) * u k = bit (G w j) * u j := by
  rw [Finset.mul_sum]
  simp only [← mul_assoc, bit_mul hex, ite_mul, zero_mul, Finset.sum_ite_eq, Finset.mem_univ, if_true]

theorem bit_mem (hG : ∀ j, Measurable fun w => G w j) (j : Fin p) : MemLp (fun w => bit (G w j)) 2 μ :=
  memLp_of_bdd (C := 1) ((measurable_of_countable bit).comp (hG j)) fun w => by cases G w j <;> simp [bit]

theorem bit_rank (hG : ∀ j, Measurable fun w => G w j) (hex : ∀ w j k, G w j = true → G w k = true → j = k)
    (hpos : ∀ j, 0 < μ.real {w | G w j = true}) (u : Fin p → ℝ) (h : ∫ w, (∑ j, bit (G w j) * u j) ^ 2 ∂μ = 0) : u = 0 := by
  have e : ∀ w, (∑ j, bit (G w j) * u j) ^ 2 = ∑ j, bit (G w j) * u j ^ 2 := fun w => by
    rw [sq, Finset.sum_mul]
    refine Finset.sum_congr rfl fun j _ => ?_
    have := bit_sum hex w j u
    linear_combination u j * this
  simp only [e] at h
  rw [integral_finsetSum _ fun j _ => ((bit_mem hG j).integrable one_le_two).mul_const _] at h
  simp only [integral_mul_const, integral_bit_one hG] at h
  funext j
  have := (Finset.sum_eq_zero_iff_of_nonneg fun j _ => mul_nonneg (hpos j).le (sq_nonneg (u j))).1 h j (Finset.mem_univ j)
  rcases mul_eq_zero.1 this with h | h
  · exact absurd h (hpos j).ne'
  · exact pow_eq_zero_iff two_ne_zero |>.1 h

theorem bit_gram (hG : ∀ j, Measurable fun w => G w j) (hex : ∀ w j k, G w j = true → G w k = true → j = k)
    (hpos : ∀ j, 0 < μ.real {w | G w j = true}) (j k : Fin p) : (if j = k then (1 : ℝ) else 0) =
      ∑ l, (∫ w, bit (G w k) * bit (G w l) ∂μ) * if j = l then 1 / μ.real {w | G w j = true} else 0 := by
  simp only [bit_mul hex, mul_ite, mul_zero, Finset.sum_ite_eq, Finset.mem_univ, if_true]
  by_cases h : j = k
  · subst h
    simp only [if_true]
    rw [integral_bit_one hG, mul_one_div_cancel (hpos j).ne']
  · rw [if_neg h]
    simp [Ne.symm h]

theorem bit_orth (hG : ∀ j, Measurable fun w => G w j) (hex : ∀ w j k, G w j = true → G w k = true → j = k)
    (hpos : ∀ j, 0 < μ.real {w | G w j = true}) {f : S → ℝ} (hf : Integrable f μ) (j : Fin p) :
    ∫ w, bit (G w j) * (f w - ∑ k, bit (G w k) * ((∫ w in {w | G w k = true}, f w ∂μ) / μ.real {w | G w k = true})) ∂μ = 0 := by
  have e : ∀ w, bit (G w j) * (f w - ∑ k, bit (G w k) * ((∫ w in {w | G w k = true}, f w ∂μ) / μ.real {w | G w k = true})) =
      bit (G w j) * (f w - (∫ w in {w | G w j = true}, f w ∂μ) / μ.real {w | G w j = true}) := fun w => by
    rw [mul_sub, mul_sub, bit_sum hex]
  simp only [e]
  rw [integral_bit hG, integral_sub hf.integrableOn (integrable_const _), integral_const]
  have : (μ.restrict {w | G w j = true}).real Set.univ = μ.real {w | G w j = true} := by
    rw [measureReal_restrict_apply MeasurableSet.univ, Set.univ_inter]
  rw [this, smul_eq_mul, mul_div_cancel₀ _ (hpos j).ne', sub_self]

theorem bit_var (hG : ∀ j, Measurable fun w => G w j) (hex : ∀ w j k, G w j = true → G w k = true → j = k) (f : S → ℝ) (β : Fin p → ℝ)
    (j : Fin p) : ∫ w, ((∑ k, (if j = k then 1 / μ.real {w | G w j = true} else 0) * bit (G w k)) * (f w - ∑ k, bit (G w k) * β k)) ^ 2 ∂μ =
      (∫ w in {w | G w j = true}, (f w - β j) ^ 2 ∂μ) / μ.real {w | G w j = true} ^ 2 := by
  have e : ∀ w, ((∑ k, (if j = k then 1 / μ.real {w | G w j = true} else 0) * bit (G w k)) * (f w - ∑ k, bit (G w k) * β k)) ^ 2 =
      bit (G w j) * (f w - β j) ^ 2 / μ.real {w | G w j = true} ^ 2 := fun w => by
    simp only [ite_mul, zero_mul, Finset.sum_ite_eq, Finset.mem_univ, if_true]
    have h1 := bit_sum hex w j β
    have h2 : bit (G w j) * bit (G w j) = bit (G w j) := by rw [bit_mul hex, if_pos rfl]
    have h3 : bit (G w j) * (f w - ∑ k, bit (G w k) * β k) = bit (G w j) * (f w - β j) := by rw [mul_sub, h1, mul_sub]
    rw [mul_assoc, h3, mul_pow, mul_pow, sq (bit (G w j)), h2, one_div, inv_pow]
    ring
  simp only [e, integral_div]
  rw [integral_bit hG]

end Cells

/-! ## Conditional average treatment effects -/

section Irm

variable {k : ∀ n, IrmClass n Q} {H : Study E P W 1 K (fun n => irmSpec (k n)) tv y d ξ enc}

/-- **C82, conditional average treatment effects.**  `x` is a bounded basis of the covariates without collinearity (`hrank`), `β` are the
coefficients of the best linear predictor of the effect `g₁ - g₀` (`hβ`: its residual is orthogonal to the basis), `v` is a row.  With `c` the
solution of `E[x xᵀ] c = v`, the asymptotic variance is that of `cᵀx` times the residual of the doubly robust signal.  The learners
meet the conditions of C79. -/
theorem C82_irm_cate [IsProbabilityMeasure P] {ols : Ols} (hols : OlsSpec ols) {τ : ℝ} (hatte : ∀ n, (k n).atte = false)
    (hg : ∀ n, (k n).gClassifier = false)
    (hn : ∀ n, (k n).normalize = false) (ht : ∀ n, (k n).trimT = τ) (hvars : ∀ n, (k n).vars = none)
    (hw : ∀ n q, (k n).weights.at q = .ok (fun _ : Fin n => 1, fun _ => 1)) (hm : ∀ n, (k n).ml_m.Compliant)
    (hbin : ∀ᶠ n in atTop, ∀ ω, (H.D n ω).binOut = false)
    (hboth : Tendsto (fun n => P (Lacking H (fun _ => True) d n)) atTop (𝓝 0))
    {g₀ g₁ m : 𝒳 → ℝ} (law : IrmLaw (P.map (W 0)) y d ξ g₀ g₁ m τ 4) (hL : IrmRates H g₀ g₁ m)
    {x : 𝒳 → Fin p → ℝ} (hx : ∀ j, Measurable fun u => x u j) {C : ℝ} (hC : ∀ u j, |x u j| ≤ C)
    (hrank : ∀ u : Fin p → ℝ, ∫ w, (∑ j, x (ξ w) j * u j) ^ 2 ∂(P.map (W 0)) = 0 → u = 0)
    {β : Fin p → ℝ} (hβ : ∀ j, ∫ w, x (ξ w) j * (g₁ (ξ w) - g₀ (ξ w) - ∑ k, x (ξ w) k * β k) ∂(P.map (W 0)) = 0)
    {names : List String} (hnames : names.Nodup) (isGate : Bool) {v c : Fin p → ℝ}
    (hc : ∀ j, v j = ∑ k, (∫ w, x (ξ w) j * x (ξ w) k ∂(P.map (W 0))) * c k) {σ : ℝ} (hσ : 0 < σ)
    (hV : σ ^ 2 = ∫ w, ((∑ k, c k * x (ξ w) k) * (g₁ (ξ w) - g₀ (ξ w) + d w * (y w - g₁ (ξ w)) / m (ξ w) -
      (1 - d w) * (y w - g₀ (ξ w)) / (1 - m (ξ w)) - ∑ k, x (ξ w) k * β k)) ^ 2 ∂(P.map (W 0))) :
    BlpValid ols P H.fitted names (fun _ ω i j => x (ξ (W i ω)) j) isGate v (∑ j, v j * β j) σ := by
  classical
  have hμ : IsProbabilityMeasure (P.map (W 0)) := Measure.isProbabilityMeasure_map (H.iid.meas 0).aemeasurable
  have a1 := law.treated (by norm_num)
  have a0 := law.untreated (by norm_num)
  have a1' := a1.mono (q := 2) (by norm_num)
  have a0' := a0.mono (q := 2) (by norm_num)
  have hM := Study.honest (H := H) hL.untreated.measM "ml_m" H.measD MeasurableSet.univ 0 (on := fun _ => True)
  have hG0 := Study.honest (H := H) hL.untreated.measG "ml_g0" H.measY (H.measD (measurableSet_singleton 0)) 0 (on := fun w => d w = 0)
  have hG1 := Study.honest (H := H) hL.untreated.measG "ml_g1" H.measY (H.measD (measurableSet_singleton 1)) 0 (on := fun w => d w = 1)
  have hov1 : ∀ x, m x ≤ 1 - τ := fun x => (law.overlap x).2
  have hov0 : ∀ x, τ ≤ m x := fun x => (law.overlap x).1
  have hpart := (irmPart1 a1 hov1 hL 0).sub H.iid (irmPart0 a0 hov0 hL.untreated 0)
  have hparts : ∀ j, Part P W H.St (H.scheme 0) (fun n k t w => x (ξ w) j * (armVal y d ξ (irmG1hat H 0 n k t) (fun x =>
      trim τ (irmMhat H 0 n k t x)) w - armVal y (fun w => 1 - d w) ξ (irmG0hat H 0 n k t) (fun x => 1 - trim τ (irmMhat H 0 n k t x)) w))
      fun w => x (ξ w) j * (armVal y d ξ g₁ m w - armVal y (fun w => 1 - d w) ξ g₀ (fun x => 1 - m x) w) := fun j => by
    have h1 := armPart_trim H.iid (a1.weigh (hx j) fun u => hC u j) hov1 (hG1.weigh (hx j)) hM
      (oPE.weigh (fun u => hC u j) (hL.errG1 0)) (hL.untreated.errM 0) (oPE.weigh_rate (fun u => hC u j) (hL.rate1 0))
    have h0 := armPart_trim0 H.iid (a0.weigh (hx j) fun u => hC u j) hov0 (hG0.weigh (hx j)) hM
      (oPE.weigh (fun u => hC u j) (hL.untreated.errG 0)) (hL.untreated.errM 0) (oPE.weigh_rate (fun u => hC u j) (hL.untreated.rate 0))
    refine (h1.sub H.iid h0).congr (fun n k t w => ?_) fun w => ?_
    · have q1 := armVal_weigh y d ξ (irmG1hat H 0 n k t) (fun x => trim τ (irmMhat H 0 n k t x)) (fun u => x u j) w
      have q0 := armVal_weigh y (fun w => 1 - d w) ξ (irmG0hat H 0 n k t) (fun x => 1 - trim τ (irmMhat H 0 n k t x)) (fun u => x u j) w
      exact (mul_sub _ _ _).trans (congrArg₂ (· - ·) q1.symm q0.symm)
    · have q1 := armVal_weigh y d ξ g₁ m (fun u => x u j) w
      have q0 := armVal_weigh y (fun w => 1 - d w) ξ g₀ (fun x => 1 - m x) (fun u => x u j) w
      exact (mul_sub _ _ _).trans (congrArg₂ (· - ·) q1.symm q0.symm)
  have hsig := Part.olsSignal (x := fun w => x (ξ w)) H.iid H.measSt (Study.balancedScheme 0) hpart hparts
  have e1 : ∀ w, armVal y d ξ g₁ m w - armVal y (fun w => 1 - d w) ξ g₀ (fun x => 1 - m x) w =
      g₁ (ξ w) - g₀ (ξ w) + d w * (y w - g₁ (ξ w)) / m (ξ w) - (1 - d w) * (y w - g₀ (ξ w)) / (1 - m (ξ w)) := fun w => by
    unfold armVal
    ring
  have hlaw : OlsLaw (P.map (W 0)) (fun w => x (ξ w)) (fun w => armVal y d ξ g₁ m w - armVal y (fun w => 1 - d w) ξ g₀ (fun x => 1 - m x) w) β C := by
    refine ⟨fun j => (hx j).comp H.measX, fun w j => hC _ j, hpart.meas0, hpart.mem0, hrank, fun j => ?_⟩
    have b1 := (a1.weigh (hx j) fun u => hC u j).mono (q := 2) (by norm_num)
    have b0 := (a0.weigh (hx j) fun u => hC u j).mono (q := 2) (by norm_num)
    have mx : ∀ j, MemLp (fun w => x (ξ w) j) 2 (P.map (W 0)) := fun j => memLp_of_bdd ((hx j).comp H.measX) fun w => hC _ j
    have mxb : MemLp (fun w => ∑ k, x (ξ w) k * β k) 2 (P.map (W 0)) := memLp_finsetSum _ fun k _ => (mx k).mul_const _
    have ib : Integrable (fun w => x (ξ w) j * ∑ k, x (ξ w) k * β k) (P.map (W 0)) := (mx j).integrable_mul mxb
    have i1 := b1.mem.integrable one_le_two
    have i0 := b0.mem.integrable one_le_two
    have j1 := b1.memG.integrable one_le_two
    have j0 := b0.memG.integrable one_le_two
    have q1 := b1.integral_eq
    have q0 := b0.integral_eq
    have e2 : ∀ w, x (ξ w) j * (armVal y d ξ g₁ m w - armVal y (fun w => 1 - d w) ξ g₀ (fun x => 1 - m x) w - ∑ k, x (ξ w) k * β k) =
        (armVal (fun w => x (ξ w) j * y w) d ξ (fun u => x u j * g₁ u) m w -
          armVal (fun w => x (ξ w) j * y w) (fun w => 1 - d w) ξ (fun u => x u j * g₀ u) (fun x => 1 - m x) w) -
          x (ξ w) j * ∑ k, x (ξ w) k * β k := fun w => by
      rw [armVal_weigh y d ξ g₁ m (fun u => x u j), armVal_weigh y (fun w => 1 - d w) ξ g₀ (fun x => 1 - m x) (fun u => x u j)]
      ring
    have e3 : ∀ w, x (ξ w) j * (g₁ (ξ w) - g₀ (ξ w) - ∑ k, x (ξ w) k * β k) =
        (x (ξ w) j * g₁ (ξ w) - x (ξ w) j * g₀ (ξ w)) - x (ξ w) j * ∑ k, x (ξ w) k * β k := fun w => by ring
    have h3 := hβ j
    simp only [e3] at h3
    simp only [e2]
    have d1 : Integrable (fun w => armVal (fun w => x (ξ w) j * y w) d ξ (fun u => x u j * g₁ u) m w -
        armVal (fun w => x (ξ w) j * y w) (fun w => 1 - d w) ξ (fun u => x u j * g₀ u) (fun x => 1 - m x) w) (P.map (W 0)) := i1.sub i0
    have d2 : Integrable (fun w => x (ξ w) j * g₁ (ξ w) - x (ξ w) j * g₀ (ξ w)) (P.map (W 0)) := j1.sub j0
    rw [integral_sub d2 ib, integral_sub j1 j0] at h3
    rw [integral_sub d1 ib, integral_sub i1 i0, q1, q0]
    exact h3
  refine blpValid_of hols H.iid hlaw hsig hboth ?_ hnames isGate hc hσ (by simpa only [e1] using hV)
  refine H.signal hvars (irm_fits hg hvars hw hm hbin law.binary) fun n ω hω cc o hcc ho => ?_
  obtain ⟨w, hw', hf⟩ := (irmValues (hg n) (hn n) (ht n) (hvars n) (hm n) law.binary hω hcc ho).fit
  unfold irmWeights at hw'
  rw [hatte n, if_neg (by simp), hw n] at hw'
  obtain rfl := Except.ok.inj hw'
  refine ⟨_, hf, funext fun i => ?_⟩
  unfold irmElems
  show _ = armVal y d ξ (irmG1hat H 0 n (H.foldOf 0 n ω i) (sample W n ω)) (fun x => trim τ (irmMhat H 0 n (H.foldOf 0 n ω i) (sample W n ω) x)) (W i ω) -
    armVal y (fun w => 1 - d w) ξ (irmG0hat H 0 n (H.foldOf 0 n ω i) (sample W n ω))
      (fun x => 1 - trim τ (irmMhat H 0 n (H.foldOf 0 n ω i) (sample W n ω) x)) (W i ω)
  unfold armVal
  ring

/-- **C82, group average treatment effects.**  The columns `names` of the data frame are indicators `gr` of mutually exclusive groups of
positive probability; `θ` is the average effect in group `j`. -/
theorem C82_irm_gate [IsProbabilityMeasure P] {ols : Ols} (hols : OlsSpec ols) {τ : ℝ} (hatte : ∀ n, (k n).atte = false)
    (hg : ∀ n, (k n).gClassifier = false)
    (hn : ∀ n, (k n).normalize = false) (ht : ∀ n, (k n).trimT = τ) (hvars : ∀ n, (k n).vars = none)
    (hw : ∀ n q, (k n).weights.at q = .ok (fun _ : Fin n => 1, fun _ => 1)) (hm : ∀ n, (k n).ml_m.Compliant)
    (hbin : ∀ᶠ n in atTop, ∀ ω, (H.D n ω).binOut = false)
    (hboth : Tendsto (fun n => P (Lacking H (fun _ => True) d n)) atTop (𝓝 0))
    {g₀ g₁ m : 𝒳 → ℝ} (law : IrmLaw (P.map (W 0)) y d ξ g₀ g₁ m τ 4) (hL : IrmRates H g₀ g₁ m)
    {names : List String} (hnames : names.Nodup) {gr : 𝒳 → Fin names.length → Bool} (hgr : ∀ j, Measurable fun u => gr u j)
    (hex : ∀ u j k, gr u j = true → gr u k = true → j = k) (hpos : ∀ j, 0 < (P.map (W 0)).real {w | gr (ξ w) j = true})
    (j : Fin names.length) {θ σ : ℝ}
    (hθ : θ = (∫ w in {w | gr (ξ w) j = true}, g₁ (ξ w) - g₀ (ξ w) ∂(P.map (W 0))) / (P.map (W 0)).real {w | gr (ξ w) j = true})
    (hσ : 0 < σ) (hV : σ ^ 2 = (∫ w in {w | gr (ξ w) j = true}, (g₁ (ξ w) - g₀ (ξ w) + d w * (y w - g₁ (ξ w)) / m (ξ w) -
      (1 - d w) * (y w - g₀ (ξ w)) / (1 - m (ξ w)) - θ) ^ 2 ∂(P.map (W 0))) / (P.map (W 0)).real {w | gr (ξ w) j = true} ^ 2) :
    GateValid ols P H.fitted names (fun n ω => boolFrame (List.ofFn fun k => (names[k], fun i : Fin n => gr (ξ (W i ω)) k))) j θ σ := by
  have hμ : IsProbabilityMeasure (P.map (W 0)) := Measure.isProbabilityMeasure_map (H.iid.meas 0).aemeasurable
  have hG : ∀ j, Measurable fun w => gr (ξ w) j := fun j => (hgr j).comp H.measX
  have hE : ∀ w j k, gr (ξ w) j = true → gr (ξ w) k = true → j = k := fun w => hex (ξ w)
  refine BlpValid.groups j ?_
  have hi : Integrable (fun w => g₁ (ξ w) - g₀ (ξ w)) (P.map (W 0)) :=
    (law.memG1.integrable (by norm_num)).sub (law.memG0.integrable (by norm_num))
  have := C82_irm_cate (H := H) hols hatte hg hn ht hvars hw hm hbin hboth law hL (x := fun u j => bit (gr u j)) (C := 1)
    (fun j => (measurable_of_countable bit).comp (hgr j)) (fun u j => by cases gr u j <;> simp [bit]) (bit_rank hG hE hpos)
    (bit_orth hG hE hpos hi) hnames true (v := fun k => if j = k then 1 else 0) (bit_gram hG hE hpos j) hσ
    (by rw [bit_var hG hE, ← hθ]; exact hV)
  simpa only [ite_mul, one_mul, zero_mul, Finset.sum_ite_eq, Finset.mem_univ, if_true, ← hθ] using this

end Irm

/-! ## Conditional average potential outcomes -/

section Apo

variable {k : ∀ n, ApoClass n Q} {H : Study E P W 1 K (fun n => apoSpec (k n)) tv y d ξ enc}

/-- **C82, conditional average potential outcomes** of the treatment level `l`. -/
theorem C82_apo_capo [IsProbabilityMeasure P] {ols : Ols} (hols : OlsSpec ols) {τ l : ℝ} (hv : ∀ n, (k n).level = l)
    (hg : ∀ n, (k n).gClassifier = false)
    (hn : ∀ n, (k n).normalize = false) (ht : ∀ n, (k n).trimT = τ) (hvars : ∀ n, (k n).vars = none)
    (hw : ∀ n q, (k n).weights.at q = .ok (fun _ : Fin n => 1, fun _ => 1)) (hm : ∀ n, (k n).ml_m.Compliant)
    (hbin : ∀ᶠ n in atTop, ∀ ω, (H.D n ω).binOut = false)
    (hboth : Tendsto (fun n => P (Lacking H (fun _ => True) (atLevel d l) n)) atTop (𝓝 0))
    {g m : 𝒳 → ℝ} (law : ArmLaw (P.map (W 0)) y (atLevel d l) ξ g m τ 4) (hτ : ∀ x, m x ≤ 1 - τ) (hL : ApoRates H l g m)
    {x : 𝒳 → Fin p → ℝ} (hx : ∀ j, Measurable fun u => x u j) {C : ℝ} (hC : ∀ u j, |x u j| ≤ C)
    (hrank : ∀ u : Fin p → ℝ, ∫ w, (∑ j, x (ξ w) j * u j) ^ 2 ∂(P.map (W 0)) = 0 → u = 0)
    {β : Fin p → ℝ} (hβ : ∀ j, ∫ w, x (ξ w) j * (g (ξ w) - ∑ k, x (ξ w) k * β k) ∂(P.map (W 0)) = 0)
    {names : List String} (hnames : names.Nodup) (isGate : Bool) {v c : Fin p → ℝ}
    (hc : ∀ j, v j = ∑ k, (∫ w, x (ξ w) j * x (ξ w) k ∂(P.map (W 0))) * c k) {σ : ℝ} (hσ : 0 < σ)
    (hV : σ ^ 2 = ∫ w, ((∑ k, c k * x (ξ w) k) * (g (ξ w) + atLevel d l w * (y w - g (ξ w)) / m (ξ w) -
      ∑ k, x (ξ w) k * β k)) ^ 2 ∂(P.map (W 0))) :
    BlpValid ols P H.fitted names (fun _ ω i j => x (ξ (W i ω)) j) isGate v (∑ j, v j * β j) σ := by
  classical
  have hμ : IsProbabilityMeasure (P.map (W 0)) := Measure.isProbabilityMeasure_map (H.iid.meas 0).aemeasurable
  have law2 := law.mono (q := 2) (by norm_num)
  have hM := Study.honest (H := H) hL.measM "ml_m" (measurable_atLevel H.measD l) MeasurableSet.univ 0 (on := fun _ => True)
  have hG := Study.honest (H := H) hL.measG "ml_g_d_lvl1" H.measY (H.measD (measurableSet_singleton l)) 0 (on := fun w => d w = l)
  have hpart := armPart_trim H.iid law hτ hG hM (hL.errG 0) (hL.errM 0) (hL.rate 0)
  have hparts : ∀ j, Part P W H.St (H.scheme 0) (fun n k t w => x (ξ w) j * armVal y (atLevel d l) ξ (apoGhat H l 0 n k t)
      (fun x => trim τ (apoMhat H l 0 n k t x)) w) fun w => x (ξ w) j * armVal y (atLevel d l) ξ g m w := fun j => by
    refine (armPart_trim H.iid (law.weigh (hx j) fun u => hC u j) hτ (hG.weigh (hx j)) hM
      (oPE.weigh (fun u => hC u j) (hL.errG 0)) (hL.errM 0) (oPE.weigh_rate (fun u => hC u j) (hL.rate 0))).congr (fun n k t w => ?_) fun w => ?_
    · exact (armVal_weigh y (atLevel d l) ξ (apoGhat H l 0 n k t) (fun x => trim τ (apoMhat H l 0 n k t x)) (fun u => x u j) w).symm
    · exact (armVal_weigh y (atLevel d l) ξ g m (fun u => x u j) w).symm
  have hsig := Part.olsSignal (x := fun w => x (ξ w)) H.iid H.measSt (Study.balancedScheme 0) hpart hparts
  have hlaw : OlsLaw (P.map (W 0)) (fun w => x (ξ w)) (armVal y (atLevel d l) ξ g m) β C := by
    refine ⟨fun j => (hx j).comp H.measX, fun w j => hC _ j, hpart.meas0, hpart.mem0, hrank, fun j => ?_⟩
    have b1 := (law.weigh (hx j) fun u => hC u j).mono (q := 2) (by norm_num)
    have mx : ∀ j, MemLp (fun w => x (ξ w) j) 2 (P.map (W 0)) := fun j => memLp_of_bdd ((hx j).comp H.measX) fun w => hC _ j
    have mxb : MemLp (fun w => ∑ k, x (ξ w) k * β k) 2 (P.map (W 0)) := memLp_finsetSum _ fun k _ => (mx k).mul_const _
    have ib : Integrable (fun w => x (ξ w) j * ∑ k, x (ξ w) k * β k) (P.map (W 0)) := (mx j).integrable_mul mxb
    have e2 : ∀ w, x (ξ w) j * (armVal y (atLevel d l) ξ g m w - ∑ k, x (ξ w) k * β k) =
        armVal (fun w => x (ξ w) j * y w) (atLevel d l) ξ (fun u => x u j * g u) m w - x (ξ w) j * ∑ k, x (ξ w) k * β k := fun w => by
      rw [armVal_weigh y (atLevel d l) ξ g m (fun u => x u j)]
      ring
    have h3 := hβ j
    simp only [mul_sub] at h3
    simp only [e2]
    rw [integral_sub (b1.memG.integrable one_le_two) ib] at h3
    rw [integral_sub (b1.mem.integrable one_le_two) ib, b1.integral_eq]
    exact h3
  refine blpValid_of hols H.iid hlaw hsig hboth ?_ hnames isGate hc hσ hV
  refine H.signal hvars (apo_fits hv hg hvars hw hm hbin) fun n ω hω cc o hcc ho => ?_
  have hf := apoValues hv hg ht hvars hw hm hω hcc ho
  rw [hn n] at hf
  refine ⟨_, hf, funext fun i => ?_⟩
  unfold apoElems adjust
  dsimp only
  rw [if_neg (by simp)]
  show _ = armVal y (atLevel d l) ξ (apoGhat H l 0 n (H.foldOf 0 n ω i) (sample W n ω))
    (fun x => trim τ (apoMhat H l 0 n (H.foldOf 0 n ω i) (sample W n ω) x)) (W i ω)
  unfold armVal
  ring

/-- **C82, group average potential outcomes** of the treatment level `l`. -/
theorem C82_apo_gapo [IsProbabilityMeasure P] {ols : Ols} (hols : OlsSpec ols) {τ l : ℝ} (hv : ∀ n, (k n).level = l)
    (hg : ∀ n, (k n).gClassifier = false)
    (hn : ∀ n, (k n).normalize = false) (ht : ∀ n, (k n).trimT = τ) (hvars : ∀ n, (k n).vars = none)
    (hw : ∀ n q, (k n).weights.at q = .ok (fun _ : Fin n => 1, fun _ => 1)) (hm : ∀ n, (k n).ml_m.Compliant)
    (hbin : ∀ᶠ n in atTop, ∀ ω, (H.D n ω).binOut = false)
    (hboth : Tendsto (fun n => P (Lacking H (fun _ => True) (atLevel d l) n)) atTop (𝓝 0))
    {g m : 𝒳 → ℝ} (law : ArmLaw (P.map (W 0)) y (atLevel d l) ξ g m τ 4) (hτ : ∀ x, m x ≤ 1 - τ) (hL : ApoRates H l g m)
    {names : List String} (hnames : names.Nodup) {gr : 𝒳 → Fin names.length → Bool} (hgr : ∀ j, Measurable fun u => gr u j)
    (hex : ∀ u j k, gr u j = true → gr u k = true → j = k) (hpos : ∀ j, 0 < (P.map (W 0)).real {w | gr (ξ w) j = true})
    (j : Fin names.length) {θ σ : ℝ}
    (hθ : θ = (∫ w in {w | gr (ξ w) j = true}, g (ξ w) ∂(P.map (W 0))) / (P.map (W 0)).real {w | gr (ξ w) j = true})
    (hσ : 0 < σ) (hV : σ ^ 2 = (∫ w in {w | gr (ξ w) j = true}, (g (ξ w) + atLevel d l w * (y w - g (ξ w)) / m (ξ w) - θ) ^ 2
      ∂(P.map (W 0))) / (P.map (W 0)).real {w | gr (ξ w) j = true} ^ 2) :
    GateValid ols P H.fitted names (fun n ω => boolFrame (List.ofFn fun k => (names[k], fun i : Fin n => gr (ξ (W i ω)) k))) j θ σ := by
  have hμ : IsProbabilityMeasure (P.map (W 0)) := Measure.isProbabilityMeasure_map (H.iid.meas 0).aemeasurable
  have hG : ∀ j, Measurable fun w => gr (ξ w) j := fun j => (hgr j).comp H.measX
  have hE : ∀ w j k, gr (ξ w) j = true → gr (ξ w) k = true → j = k := fun w => hex (ξ w)
  refine BlpValid.groups j ?_
  have := C82_apo_capo (H := H) hols hv hg hn ht hvars hw hm hbin hboth law hτ hL (x := fun u j => bit (gr u j)) (C := 1)
    (fun j => (measurable_of_countable bit).comp (hgr j)) (fun u j => by cases gr u j <;> simp [bit]) (bit_rank hG hE hpos)
    (bit_orth hG hE hpos (law.memG.integrable (by norm_num))) hnames true (v := fun k => if j = k then 1 else 0) (bit_gram hG hE hpos j) hσ
    (by rw [bit_var hG hE, ← hθ]; exact hV)
  simpa only [ite_mul, one_mul, zero_mul, Finset.sum_ite_eq, Finset.mem_univ, if_true, ← hθ] using this

end Apo

end DML
