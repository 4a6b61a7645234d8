import Verif.Neyman
import Verif.Scores
import Mathlib.Analysis.Calculus.Deriv.Mul
import Mathlib.Analysis.Calculus.Deriv.Pow

/-!
# The scores identify the parameters and are Neyman orthogonal

C78.  The score functions of the models are evaluated at one observation and averaged over its law.  At the true nuisance
functions the mean of the score vanishes at the true parameter and nowhere else; its derivative in the nuisance functions is
zero there; and where a score is doubly robust, one correct nuisance function is enough.
-/

namespace DML

open MeasureTheory Filter
open scoped ENNReal Topology

variable {S : Type*} [mS : MeasurableSpace S] {μ : Measure S} {𝒳 : Type*} [MeasurableSpace 𝒳]

/-! ## Specification -/

/-- A sample with one observation. -/
def obs (a : ℝ) : Fin 1 → ℝ := fun _ => a

/-- The expected score at `θ`; `e w` holds the score elements of the observation `w`. -/
noncomputable def expScore (μ : Measure S) (e : S → PsiElems 1) (θ : ℝ) : ℝ := ∫ w, (e w).score θ 0 ∂μ

/-- The expected score vanishes at `θ₀` and nowhere else. -/
def Identifies (μ : Measure S) (e : S → PsiElems 1) (θ₀ : ℝ) : Prop := ∀ θ, expScore μ e θ = 0 ↔ θ = θ₀

/-- Along the path `e`, the expected score at `θ₀` has derivative zero at the true functions. -/
def OrthogonalAlong (μ : Measure S) (e : ℝ → S → PsiElems 1) (θ₀ : ℝ) : Prop :=
  HasDerivAt (fun t => expScore μ (e t) θ₀) 0 0

/-- A direction for a regression function. -/
structure Direction (μ : Measure S) (ξ : S → 𝒳) (h : 𝒳 → ℝ) : Prop where
  meas : Measurable h
  mem : MemLp (fun w => h (ξ w)) 2 μ

/-- A direction for a probability. -/
structure BoundedDirection (k : 𝒳 → ℝ) : Prop where
  meas : Measurable k
  bdd : ∃ B, ∀ x, |k x| ≤ B

/-- A possibly wrong regression function. -/
structure Guess (μ : Measure S) (ξ : S → 𝒳) (g g' : 𝒳 → ℝ) : Prop where
  meas : Measurable g'
  mem : MemLp (fun w => g' (ξ w) - g (ξ w)) 2 μ

/-- A possibly wrong probability, bounded away from zero and one. -/
structure ProbGuess (m' : 𝒳 → ℝ) : Prop where
  meas : Measurable m'
  bdd : ∃ σ, 0 < σ ∧ ∀ x, σ ≤ m' x ∧ m' x ≤ 1 - σ

/-! ## Helpers -/

theorem expScore_eq (e : S → PsiElems 1) (θ : ℝ) {F : S → ℝ} (h : ∀ w, (e w).score θ 0 = F w) : expScore μ e θ = ∫ w, F w ∂μ := by
  unfold expScore
  simp only [h]

theorem identifies_of {e : S → PsiElems 1} {θ₀ : ℝ} (ia : Integrable (fun w => (e w).a 0) μ)
    (i0 : Integrable (fun w => (e w).score θ₀ 0) μ) (h0 : ∫ w, (e w).score θ₀ 0 ∂μ = 0) (hA : ∫ w, (e w).a 0 ∂μ ≠ 0) :
    Identifies μ e θ₀ := by
  intro θ
  have h1 : expScore μ e θ = (θ - θ₀) * ∫ w, (e w).a 0 ∂μ := by
    rw [expScore_eq e θ (F := fun w => (e w).score θ₀ 0 + (θ - θ₀) * (e w).a 0) fun w => by
      unfold PsiElems.score
      ring, integral_add i0 (ia.const_mul _), h0, integral_const_mul, zero_add]
  rw [h1, mul_eq_zero]
  constructor
  · rintro (h | h)
    · linarith
    · exact absurd h hA
  · rintro rfl
    exact Or.inl (sub_self _)

theorem orthogonal_of {e : ℝ → S → PsiElems 1} {θ₀ : ℝ} {F : ℝ → S → ℝ} {c : ℝ} (h : FlatMean μ F c)
    (he : ∀ t w, (e t w).score θ₀ 0 = F t w) : OrthogonalAlong μ e θ₀ := by
  have h1 := h.hasDerivAt
  unfold OrthogonalAlong
  have : (fun t => expScore μ (e t) θ₀) = fun t => ∫ w, F t w ∂μ := funext fun t => expScore_eq _ _ (he t)
  rw [this]
  exact h1

theorem orthogonal_of_sq {e : ℝ → S → PsiElems 1} {θ₀ c : ℝ} (h : ∀ t, expScore μ (e t) θ₀ = t ^ 2 * c) : OrthogonalAlong μ e θ₀ := by
  unfold OrthogonalAlong
  rw [funext h]
  simpa using (hasDerivAt_pow 2 (0 : ℝ)).mul_const c

/-- An average over one observation. -/
theorem mean_one (v : Fin 1 → ℝ) : mean v = v 0 := by simp [mean]

theorem BoundedDirection.bound {k : 𝒳 → ℝ} (h : BoundedDirection k) :
    ∃ B, ∀ (m : 𝒳 → ℝ) (t : ℝ) (x : 𝒳), |t| ≤ 1 → |m x + t * k x - m x| ≤ B * |t| := by
  obtain ⟨B, hB⟩ := h.bdd
  refine ⟨B, fun m t x _ => ?_⟩
  rw [add_sub_cancel_left, abs_mul, mul_comm]
  exact mul_le_mul_of_nonneg_right (hB x) (abs_nonneg _)

/-! ## The score of an observation does not depend on the other observations -/

variable {n : ℕ}

/-- In a sample, the score of an observation is the score function at that observation (propensities not normalised, unweighted). -/
theorem C78_elementwise (y d z s l m r g g0 g1 r0 r1 pi p : Fin n → ℝ) (θ : ℝ) (i : Fin n) :
    (plrPo y d l m).score θ i = (plrPo (obs (y i)) (obs (d i)) (obs (l i)) (obs (m i))).score θ 0 ∧
    (plrIv y d m g).score θ i = (plrIv (obs (y i)) (obs (d i)) (obs (m i)) (obs (g i))).score θ 0 ∧
    (plivPo y z d l m r).score θ i = (plivPo (obs (y i)) (obs (z i)) (obs (d i)) (obs (l i)) (obs (m i)) (obs (r i))).score θ 0 ∧
    (plivIv y z d m g).score θ i = (plivIv (obs (y i)) (obs (z i)) (obs (d i)) (obs (m i)) (obs (g i))).score θ 0 ∧
    (irmAte false y d g0 g1 m (fun _ => 1) (fun _ => 1)).score θ i =
      (irmAte false (obs (y i)) (obs (d i)) (obs (g0 i)) (obs (g1 i)) (obs (m i)) (obs 1) (obs 1)).score θ 0 ∧
    (apoElems false y d g1 m (fun _ => 1) (fun _ => 1)).score θ i =
      (apoElems false (obs (y i)) (obs (d i)) (obs (g1 i)) (obs (m i)) (obs 1) (obs 1)).score θ 0 ∧
    (iivmElems false y z d g0 g1 m r0 r1).score θ i =
      (iivmElems false (obs (y i)) (obs (z i)) (obs (d i)) (obs (g0 i)) (obs (g1 i)) (obs (m i)) (obs (r0 i)) (obs (r1 i))).score θ 0 ∧
    (ssmElems false d z g1 g0 pi m s y).score θ i =
      (ssmElems false (obs (d i)) (obs (z i)) (obs (g1 i)) (obs (g0 i)) (obs (pi i)) (obs (m i)) (obs (s i)) (obs (y i))).score θ 0 ∧
    ∀ sc, (didElems sc false y d g0 g1 m p).score θ i =
      (didElems sc false (obs (y i)) (obs (d i)) (obs (g0 i)) (obs (g1 i)) (obs (m i)) (obs (p i))).score θ 0 := by
  have hn : (n : ℝ) ≠ 0 := by
    have := i.pos
    positivity
  have h1 : mean (fun _ : Fin n => (1 : ℝ)) = 1 := by simp [mean, hn]
  refine ⟨rfl, rfl, rfl, rfl, ?_, ?_, rfl, rfl, ?_⟩
  · simp only [PsiElems.score, irmAte, irmElems, adjust, h1, mean_one, obs, Bool.false_eq_true, if_false]
  · simp only [PsiElems.score, apoElems, adjust, h1, mean_one, obs, Bool.false_eq_true, if_false]
  · rintro (_ | _) <;> rfl

/-! ## Partially linear models -/

section Pliv

variable [IsProbabilityMeasure μ] {y d z : S → ℝ} {ξ : S → 𝒳} {θ₀ : ℝ} {g m r : 𝒳 → ℝ}

theorem pliv_po_score (θ yw dw zw lw mw rw' : ℝ) :
    (plivPo (obs yw) (obs zw) (obs dw) (obs lw) (obs mw) (obs rw')).score θ 0 = (yw - lw - θ * (dw - rw')) * (zw - mw) := by
  unfold PsiElems.score plivPo obs
  ring

theorem pliv_iv_score (θ yw dw zw mw gw : ℝ) :
    (plivIv (obs yw) (obs zw) (obs dw) (obs mw) (obs gw)).score θ 0 = (yw - θ * dw - gw) * (zw - mw) := by
  unfold PsiElems.score plivIv obs
  ring

/-- PLIV, `partialling out`: with `l = E[y | ξ]`, `m = E[z | ξ]` and `r = E[d | ξ]` the score identifies `θ₀` if the instrument is
relevant; it is orthogonal; and it has mean zero whatever is used for `l` and `r` if `m` is right. -/
theorem C78_pliv_po (h : PlivLaw μ y d z ξ θ₀ g m r 2) (relevant : ∫ w, (d w - r (ξ w)) * (z w - m (ξ w)) ∂μ ≠ 0) :
    Identifies μ (fun w => plivPo (obs (y w)) (obs (z w)) (obs (d w)) (obs (θ₀ * r (ξ w) + g (ξ w))) (obs (m (ξ w))) (obs (r (ξ w)))) θ₀ ∧
    (∀ hl hm hr : 𝒳 → ℝ, Direction μ ξ hl → Direction μ ξ hm → Direction μ ξ hr →
      OrthogonalAlong μ (fun t w => plivPo (obs (y w)) (obs (z w)) (obs (d w)) (obs (θ₀ * r (ξ w) + g (ξ w) + t * hl (ξ w)))
        (obs (m (ξ w) + t * hm (ξ w))) (obs (r (ξ w) + t * hr (ξ w)))) θ₀) ∧
    ∀ l' r' : 𝒳 → ℝ, Guess μ ξ (fun x => θ₀ * r x + g x) l' → Guess μ ξ r r' →
      expScore μ (fun w => plivPo (obs (y w)) (obs (z w)) (obs (d w)) (obs (l' (ξ w))) (obs (m (ξ w))) (obs (r' (ξ w)))) θ₀ = 0 := by
  have hl0 : Measurable fun x => θ₀ * r x + g x := (h.measR.const_mul _).add h.measG
  refine ⟨?_, fun hl hm hr dl dm dr => ?_, fun l' r' gl gr => ?_⟩
  · have e : ∀ w, y w - (θ₀ * r (ξ w) + g (ξ w)) - θ₀ * (d w - r (ξ w)) = y w - θ₀ * d w - g (ξ w) := fun w => by ring
    have n1 := h.noise_instr
    refine identifies_of ?_ ?_ ?_ ?_
    · exact (h.memTreat.integrable_mul h.memInstr).neg
    · simp only [pliv_po_score, e]
      exact n1.1
    · simp only [pliv_po_score, e]
      exact n1.2
    · show ∫ w, -((d w - r (ξ w)) * (z w - m (ξ w))) ∂μ ≠ 0
      rw [integral_neg]
      exact neg_ne_zero.2 relevant
  · refine orthogonal_of_sq (c := ∫ w, (hl (ξ w) - θ₀ * hr (ξ w)) * hm (ξ w) ∂μ) fun t => ?_
    rw [expScore_eq _ _ fun w => pliv_po_score _ _ _ _ _ _ _]
    have := h.moment (l' := fun x => θ₀ * r x + g x + t * hl x) (m' := fun x => m x + t * hm x) (r' := fun x => r x + t * hr x)
      (hl0.add (dl.meas.const_mul t)) (h.measM.add (dm.meas.const_mul t)) (h.measR.add (dr.meas.const_mul t))
      ((dl.mem.const_mul t).ae_eq (Eventually.of_forall fun w => by simp))
      ((dm.mem.const_mul t).ae_eq (Eventually.of_forall fun w => by simp))
      ((dr.mem.const_mul t).ae_eq (Eventually.of_forall fun w => by simp))
    rw [this, ← integral_const_mul]
    refine integral_congr_ae (Eventually.of_forall fun w => ?_)
    dsimp only
    ring
  · rw [expScore_eq _ _ fun w => pliv_po_score _ _ _ _ _ _ _, h.moment gl.meas h.measM gr.meas gl.mem (by simp) gr.mem]
    simp

/-- PLR, `partialling out`: with `l = E[y | ξ]` and `m = E[d | ξ]`. -/
theorem C78_plr_po (h : PlrLaw μ y d ξ θ₀ g m 2) (varies : ∫ w, (d w - m (ξ w)) ^ 2 ∂μ ≠ 0) :
    Identifies μ (fun w => plrPo (obs (y w)) (obs (d w)) (obs (θ₀ * m (ξ w) + g (ξ w))) (obs (m (ξ w)))) θ₀ ∧
    (∀ hl hm : 𝒳 → ℝ, Direction μ ξ hl → Direction μ ξ hm →
      OrthogonalAlong μ (fun t w => plrPo (obs (y w)) (obs (d w)) (obs (θ₀ * m (ξ w) + g (ξ w) + t * hl (ξ w)))
        (obs (m (ξ w) + t * hm (ξ w)))) θ₀) ∧
    ∀ l' : 𝒳 → ℝ, Guess μ ξ (fun x => θ₀ * m x + g x) l' →
      expScore μ (fun w => plrPo (obs (y w)) (obs (d w)) (obs (l' (ξ w))) (obs (m (ξ w)))) θ₀ = 0 := by
  have hz := C78_pliv_po h (by simpa only [← pow_two] using varies)
  exact ⟨hz.1, fun hl hm dl dm => hz.2.1 hl hm hm dl dm dm, fun l' gl => hz.2.2 l' m gl ⟨h.measM, by simp⟩⟩

/-- PLIV, `IV-type`: identification, orthogonality, and double robustness: `g` or `m` may be wrong. -/
theorem C78_pliv_iv (h : PlivLaw μ y d z ξ θ₀ g m r 2) (hd : MemLp d 2 μ) (relevant : ∫ w, (d w - r (ξ w)) * (z w - m (ξ w)) ∂μ ≠ 0) :
    Identifies μ (fun w => plivIv (obs (y w)) (obs (z w)) (obs (d w)) (obs (m (ξ w))) (obs (g (ξ w)))) θ₀ ∧
    (∀ hm hg : 𝒳 → ℝ, Direction μ ξ hm → Direction μ ξ hg →
      OrthogonalAlong μ (fun t w => plivIv (obs (y w)) (obs (z w)) (obs (d w)) (obs (m (ξ w) + t * hm (ξ w)))
        (obs (g (ξ w) + t * hg (ξ w)))) θ₀) ∧
    ∀ m' g' : 𝒳 → ℝ, Guess μ ξ m m' → Guess μ ξ g g' → ((∀ x, m' x = m x) ∨ ∀ x, g' x = g x) →
      expScore μ (fun w => plivIv (obs (y w)) (obs (z w)) (obs (d w)) (obs (m' (ξ w))) (obs (g' (ξ w)))) θ₀ = 0 := by
  have prod : ∀ m' g' : 𝒳 → ℝ, Guess μ ξ m m' → Guess μ ξ g g' →
      expScore μ (fun w => plivIv (obs (y w)) (obs (z w)) (obs (d w)) (obs (m' (ξ w))) (obs (g' (ξ w)))) θ₀ =
        ∫ w, (g' (ξ w) - g (ξ w)) * (m' (ξ w) - m (ξ w)) ∂μ := by
    intro m' g' gm gg
    rw [expScore_eq _ _ fun w => pliv_iv_score _ _ _ _ _ _,
      ← h.product (e := fun x => g' x - g x) (f := fun x => m' x - m x) (gg.meas.sub h.measG) (gm.meas.sub h.measM) gg.mem gm.mem]
    refine integral_congr_ae (Eventually.of_forall fun w => ?_)
    dsimp only
    ring
  have dir : ∀ {f k : 𝒳 → ℝ}, Measurable f → Direction μ ξ k → ∀ t : ℝ, Guess μ ξ f fun x => f x + t * k x := by
    intro f k hf hk t
    exact ⟨hf.add (hk.meas.const_mul t), (hk.mem.const_mul t).ae_eq (Eventually.of_forall fun w => by simp)⟩
  refine ⟨?_, fun hm hg dm dg => ?_, fun m' g' gm gg hr => ?_⟩
  · have n1 := h.noise_instr
    have ir : MemLp (fun w => r (ξ w)) 2 μ := (hd.sub h.memTreat).ae_eq (Eventually.of_forall fun w => by simp)
    have n2 := h.instr.null h.measX h.memInstr h.measR ir
    have i1 : Integrable (fun w => (z w - m (ξ w)) * d w) μ := h.memInstr.integrable_mul hd
    refine identifies_of ?_ ?_ ?_ ?_
    · exact i1.neg
    · simp only [pliv_iv_score]
      exact n1.1
    · simp only [pliv_iv_score]
      exact n1.2
    · show ∫ w, -((z w - m (ξ w)) * d w) ∂μ ≠ 0
      rw [integral_neg, n2.integral_eq (f := fun w => (z w - m (ξ w)) * d w) (h.memTreat.integrable_mul h.memInstr) fun w => by
        simp only [Pi.mul_apply]
        ring]
      exact neg_ne_zero.2 relevant
  · refine orthogonal_of_sq (c := ∫ w, hg (ξ w) * hm (ξ w) ∂μ) fun t => ?_
    rw [prod _ _ (dir h.measM dm t) (dir h.measG dg t), ← integral_const_mul]
    refine integral_congr_ae (Eventually.of_forall fun w => ?_)
    dsimp only
    ring
  · rw [prod m' g' gm gg]
    rcases hr with hr | hr <;> simp [hr]

/-- PLR, `IV-type`. -/
theorem C78_plr_iv (h : PlrLaw μ y d ξ θ₀ g m 2) (hd : MemLp d 2 μ) (varies : ∫ w, (d w - m (ξ w)) ^ 2 ∂μ ≠ 0) :
    Identifies μ (fun w => plrIv (obs (y w)) (obs (d w)) (obs (m (ξ w))) (obs (g (ξ w)))) θ₀ ∧
    (∀ hm hg : 𝒳 → ℝ, Direction μ ξ hm → Direction μ ξ hg →
      OrthogonalAlong μ (fun t w => plrIv (obs (y w)) (obs (d w)) (obs (m (ξ w) + t * hm (ξ w))) (obs (g (ξ w) + t * hg (ξ w)))) θ₀) ∧
    ∀ m' g' : 𝒳 → ℝ, Guess μ ξ m m' → Guess μ ξ g g' → ((∀ x, m' x = m x) ∨ ∀ x, g' x = g x) →
      expScore μ (fun w => plrIv (obs (y w)) (obs (d w)) (obs (m' (ξ w))) (obs (g' (ξ w)))) θ₀ = 0 :=
  C78_pliv_iv h hd (by simpa only [← pow_two] using varies)

end Pliv

/-! ## Interactive models -/

section Irm

variable [IsProbabilityMeasure μ] {y d : S → ℝ} {ξ : S → 𝒳} {g₀ g₁ m : 𝒳 → ℝ} {τ : ℝ}

omit [IsProbabilityMeasure μ] in
theorem ProbGuess.near {m' : 𝒳 → ℝ} (h : ProbGuess m') {p : ℝ≥0∞} {u : S → ℝ} {g : 𝒳 → ℝ} (ha : ArmLaw μ y u ξ g m τ p) (x : 𝒳) :
    |m' x - m x| ≤ 1 := by
  obtain ⟨σ, hσ, hb⟩ := h.bdd
  have h1 := hb x
  have h2 := ha.overlap x
  have := ha.pos
  rw [_root_.abs_le]
  constructor <;> linarith

theorem ProbGuess.compl {m' : 𝒳 → ℝ} (h : ProbGuess m') : ProbGuess fun x => 1 - m' x := by
  obtain ⟨σ, hσ, hb⟩ := h.bdd
  exact ⟨measurable_const.sub h.meas, σ, hσ, fun x => ⟨by linarith [(hb x).2], by linarith [(hb x).1]⟩⟩

/-- One arm with guesses. -/
theorem ArmLaw.guess {u : S → ℝ} {g : 𝒳 → ℝ} (h : ArmLaw μ y u ξ g m τ 2) {g' m' : 𝒳 → ℝ} (gg : Guess μ ξ g g') (gm : ProbGuess m')
    (hr : (∀ x, g' x = g x) ∨ ∀ x, m' x = m x) :
    HasMean μ (armVal y u ξ g' m') (∫ w, g (ξ w) ∂μ) := by
  obtain ⟨σ, hσ, hb⟩ := gm.bdd
  exact h.robust gg.meas gm.meas gg.mem hσ (fun x => (hb x).1) (fun x => gm.near h x) hr

/-- One arm along a path. -/
theorem ArmLaw.path {u : S → ℝ} {g : 𝒳 → ℝ} (h : ArmLaw μ y u ξ g m τ 2) {k q : 𝒳 → ℝ} (hk : Direction μ ξ k) (hq : BoundedDirection q) :
    FlatMean μ (fun t => armVal y u ξ (fun x => g x + t * k x) fun x => m x + t * q x) (∫ w, g (ξ w) ∂μ) := by
  obtain ⟨B, hB⟩ := hq.bound
  exact h.flat hk.meas hk.mem (fun _ _ => rfl) (fun t => h.measM.add (hq.meas.const_mul t)) (hB m)

/-- The complementary arm along a path. -/
theorem ArmLaw.path_compl {u : S → ℝ} {g : 𝒳 → ℝ} (h : ArmLaw μ y u ξ g (fun x => 1 - m x) τ 2) {k q : 𝒳 → ℝ} (hk : Direction μ ξ k)
    (hq : BoundedDirection q) (hm : Measurable m) :
    FlatMean μ (fun t => armVal y u ξ (fun x => g x + t * k x) fun x => 1 - (m x + t * q x)) (∫ w, g (ξ w) ∂μ) := by
  obtain ⟨B, hB⟩ := hq.bound
  refine h.flat hk.meas hk.mem (fun _ _ => rfl) (fun t => measurable_const.sub (hm.add (hq.meas.const_mul t))) (B := B) fun t x ht => ?_
  have := hB m t x ht
  rw [add_sub_cancel_left] at this
  rw [show 1 - (m x + t * q x) - (1 - m x) = -(t * q x) by ring, abs_neg]
  exact this

omit mS [MeasurableSpace 𝒳] in
theorem ate_score (θ : ℝ) (g0' g1' m' : 𝒳 → ℝ) (w : S) :
    (irmAte false (obs (y w)) (obs (d w)) (obs (g0' (ξ w))) (obs (g1' (ξ w))) (obs (m' (ξ w))) (obs 1) (obs 1)).score θ 0 =
      armVal y d ξ g1' m' w - armVal y (fun w => 1 - d w) ξ g0' (fun x => 1 - m' x) w - θ := by
  simp only [PsiElems.score, irmAte, irmElems, adjust, mean_one, obs, Bool.false_eq_true, if_false, armVal]
  ring

/-- IRM, `ATE`: the parameter is the mean of `g₁(ξ) - g₀(ξ)`, where `g_j(ξ) = E[y | d = j, ξ]`; doubly robust. -/
theorem C78_irm_ate (h : IrmLaw μ y d ξ g₀ g₁ m τ 2) :
    Identifies μ (fun w => irmAte false (obs (y w)) (obs (d w)) (obs (g₀ (ξ w))) (obs (g₁ (ξ w))) (obs (m (ξ w))) (obs 1) (obs 1))
      (∫ w, (g₁ (ξ w) - g₀ (ξ w)) ∂μ) ∧
    (∀ h0 h1 k : 𝒳 → ℝ, Direction μ ξ h0 → Direction μ ξ h1 → BoundedDirection k →
      OrthogonalAlong μ (fun t w => irmAte false (obs (y w)) (obs (d w)) (obs (g₀ (ξ w) + t * h0 (ξ w))) (obs (g₁ (ξ w) + t * h1 (ξ w)))
        (obs (m (ξ w) + t * k (ξ w))) (obs 1) (obs 1)) (∫ w, (g₁ (ξ w) - g₀ (ξ w)) ∂μ)) ∧
    ∀ g0' g1' m' : 𝒳 → ℝ, Guess μ ξ g₀ g0' → Guess μ ξ g₁ g1' → ProbGuess m' →
      (((∀ x, g0' x = g₀ x) ∧ ∀ x, g1' x = g₁ x) ∨ ∀ x, m' x = m x) →
      expScore μ (fun w => irmAte false (obs (y w)) (obs (d w)) (obs (g0' (ξ w))) (obs (g1' (ξ w))) (obs (m' (ξ w))) (obs 1) (obs 1))
        (∫ w, (g₁ (ξ w) - g₀ (ξ w)) ∂μ) = 0 := by
  have a1 := h.treated one_le_two
  have a0 := h.untreated one_le_two
  have sp : ∫ w, (g₁ (ξ w) - g₀ (ξ w)) ∂μ = ∫ w, g₁ (ξ w) ∂μ - ∫ w, g₀ (ξ w) ∂μ :=
    integral_sub (a1.memG.integrable one_le_two) (a0.memG.integrable one_le_two)
  have rob : ∀ g0' g1' m' : 𝒳 → ℝ, Guess μ ξ g₀ g0' → Guess μ ξ g₁ g1' → ProbGuess m' →
      (((∀ x, g0' x = g₀ x) ∧ ∀ x, g1' x = g₁ x) ∨ ∀ x, m' x = m x) →
      Null μ fun w => (irmAte false (obs (y w)) (obs (d w)) (obs (g0' (ξ w))) (obs (g1' (ξ w))) (obs (m' (ξ w))) (obs 1) (obs 1)).score
        (∫ w, (g₁ (ξ w) - g₀ (ξ w)) ∂μ) 0 := by
    intro g0' g1' m' G0 G1 M hr
    have i1 := a1.guess G1 M (hr.imp (fun q => q.2) id)
    have i0 := a0.guess G0 M.compl (hr.imp (fun q => q.1) fun q x => by rw [q x])
    simp only [ate_score]
    exact ((i1.sub i0).sub (HasMean.const _)).null (by rw [sp]; ring)
  have self0 : Guess μ ξ g₀ g₀ := ⟨h.measG0, by simp⟩
  have self1 : Guess μ ξ g₁ g₁ := ⟨h.measG1, by simp⟩
  have selfm : ProbGuess m := ⟨h.measM, τ, h.pos, h.overlap⟩
  refine ⟨?_, fun h0 h1 k d0 d1 dk => ?_, fun g0' g1' m' G0 G1 M hr => (rob g0' g1' m' G0 G1 M hr).2⟩
  · have nl := rob g₀ g₁ m self0 self1 selfm (Or.inr fun _ => rfl)
    have ea : ∀ w, (irmAte false (obs (y w)) (obs (d w)) (obs (g₀ (ξ w))) (obs (g₁ (ξ w))) (obs (m (ξ w))) (obs 1) (obs 1)).a 0 = -1 := by
      intro w
      simp [irmAte, irmElems, mean_one, obs]
    refine identifies_of ?_ nl.1 nl.2 ?_
    · simp only [ea]
      exact integrable_const _
    · simp [ea]
  · exact orthogonal_of (((a1.path d1 dk).sub (a0.path_compl d0 dk h.measM)).sub
      (FlatMean.const (integrable_const (∫ w, (g₁ (ξ w) - g₀ (ξ w)) ∂μ)))) fun t w =>
      ate_score _ (fun x => g₀ x + t * h0 x) (fun x => g₁ x + t * h1 x) (fun x => m x + t * k x) w

omit mS [MeasurableSpace 𝒳] in
theorem apo_score (θ : ℝ) (u : S → ℝ) (g' m' : 𝒳 → ℝ) (w : S) :
    (apoElems false (obs (y w)) (obs (u w)) (obs (g' (ξ w))) (obs (m' (ξ w))) (obs 1) (obs 1)).score θ 0 = armVal y u ξ g' m' w - θ := by
  simp only [PsiElems.score, apoElems, adjust, mean_one, obs, Bool.false_eq_true, if_false, armVal]
  ring

/-- APO: `u` is the indicator of the treatment level; the parameter is the mean of `g(ξ) = E[y | u = 1, ξ]`; doubly robust. -/
theorem C78_apo {u : S → ℝ} {g : 𝒳 → ℝ} (h : ArmLaw μ y u ξ g m τ 2) (hm1 : ∃ σ, 0 < σ ∧ ∀ x, m x ≤ 1 - σ) :
    Identifies μ (fun w => apoElems false (obs (y w)) (obs (u w)) (obs (g (ξ w))) (obs (m (ξ w))) (obs 1) (obs 1)) (∫ w, g (ξ w) ∂μ) ∧
    (∀ hg k : 𝒳 → ℝ, Direction μ ξ hg → BoundedDirection k →
      OrthogonalAlong μ (fun t w => apoElems false (obs (y w)) (obs (u w)) (obs (g (ξ w) + t * hg (ξ w))) (obs (m (ξ w) + t * k (ξ w)))
        (obs 1) (obs 1)) (∫ w, g (ξ w) ∂μ)) ∧
    ∀ g' m' : 𝒳 → ℝ, Guess μ ξ g g' → ProbGuess m' → ((∀ x, g' x = g x) ∨ ∀ x, m' x = m x) →
      expScore μ (fun w => apoElems false (obs (y w)) (obs (u w)) (obs (g' (ξ w))) (obs (m' (ξ w))) (obs 1) (obs 1)) (∫ w, g (ξ w) ∂μ) = 0 := by
  have rob : ∀ g' m' : 𝒳 → ℝ, Guess μ ξ g g' → ProbGuess m' → ((∀ x, g' x = g x) ∨ ∀ x, m' x = m x) →
      Null μ fun w => (apoElems false (obs (y w)) (obs (u w)) (obs (g' (ξ w))) (obs (m' (ξ w))) (obs 1) (obs 1)).score
        (∫ w, g (ξ w) ∂μ) 0 := by
    intro g' m' G M hr
    have i1 := h.guess G M hr
    simp only [apo_score]
    exact (i1.sub (HasMean.const _)).null (by ring)
  have selfm : ProbGuess m := by
    obtain ⟨σ, hσ, hb⟩ := hm1
    exact ⟨h.measM, min τ σ, lt_min h.pos hσ, fun x => ⟨(min_le_left _ _).trans (h.overlap x).1,
      (hb x).trans (by linarith [min_le_right τ σ])⟩⟩
  refine ⟨?_, fun hg k dg dk => ?_, fun g' m' G M hr => (rob g' m' G M hr).2⟩
  · have nl := rob g m ⟨h.measG, by simp⟩ selfm (Or.inr fun _ => rfl)
    have ea : ∀ w, (apoElems false (obs (y w)) (obs (u w)) (obs (g (ξ w))) (obs (m (ξ w))) (obs 1) (obs 1)).a 0 = -1 := by
      intro w
      simp [apoElems, mean_one, obs]
    refine identifies_of ?_ nl.1 nl.2 ?_
    · simp only [ea]
      exact integrable_const _
    · simp [ea]
  · exact orthogonal_of ((h.path dg dk).sub (FlatMean.const (integrable_const (∫ w, g (ξ w) ∂μ)))) fun t w =>
      apo_score _ u (fun x => g x + t * hg x) (fun x => m x + t * k x) w

/-! ### Effects on the treated -/

/-- The score elements of `ATTE` at one observation when a share `p` is treated. -/
noncomputable def atteObs (p yw dw g0w g1w mw : ℝ) : PsiElems 1 :=
  { a := fun _ => -(dw / p)
    b := fun _ => dw / p * (g1w - g0w) + mw / p * (dw * (yw - g1w) / mw - (1 - dw) * (yw - g0w) / (1 - mw)) }

/-- In a sample with treated observations, the scores of `ATTE` are these with the share in the sample. -/
theorem C78_atte_sample (y d g0 g1 m : Fin n → ℝ) (hp : mean d ≠ 0) (θ : ℝ) (i : Fin n) :
    (irmAtte false y d g0 g1 m fun _ => 1).score θ i = (atteObs (mean d) (y i) (d i) (g0 i) (g1 i) (m i)).score θ 0 := by
  have e1 : (mean fun i => (1 : ℝ) * d i) = mean d := by simp
  have e2 : (mean fun i => (1 : ℝ) * d i / mean d) = 1 := by
    have : (fun i => (1 : ℝ) * d i / mean d) = fun i => (mean d)⁻¹ * d i := by
      funext i
      rw [one_mul, div_eq_inv_mul]
    rw [this]
    unfold mean at *
    rw [← Finset.mul_sum, mul_div_assoc]
    exact inv_mul_cancel₀ hp
  simp only [PsiElems.score, irmAtte, irmElems, atteWeights, adjust, Bool.false_eq_true, if_false, atteObs, e1, e2]
  ring

omit mS [MeasurableSpace 𝒳] in
theorem atte_score (p θ : ℝ) (g0' g1' m' : 𝒳 → ℝ) (w : S) (hm : m' (ξ w) ≠ 0) (hm1 : 1 - m' (ξ w) ≠ 0) :
    (atteObs p (y w) (d w) (g0' (ξ w)) (g1' (ξ w)) (m' (ξ w))).score θ 0 =
      p⁻¹ * (y w - armVal y (fun w => 1 - d w) ξ g0' (fun x => 1 - m' x) w - θ * d w) := by
  unfold PsiElems.score atteObs armVal
  dsimp only
  field_simp
  ring

omit mS [MeasurableSpace 𝒳] in
/-- DiD with the observational score has the same form. -/
theorem did_score (p θ : ℝ) (g0' g1' m' : 𝒳 → ℝ) (w : S) (hm1 : 1 - m' (ξ w) ≠ 0) :
    (didElems .observational false (obs (y w)) (obs (d w)) (obs (g0' (ξ w))) (obs (g1' (ξ w))) (obs (m' (ξ w))) (obs p)).score θ 0 =
      p⁻¹ * (y w - armVal y (fun w => 1 - d w) ξ g0' (fun x => 1 - m' x) w - θ * d w) := by
  simp only [PsiElems.score, didElems, didWa, didWr, didB1, obs, armVal]
  by_cases hp : p = 0
  · simp [hp]
  · field_simp
    ring

/-- The mean of the outcome. -/
theorem IrmLaw.outcome (h : IrmLaw μ y d ξ g₀ g₁ m τ 2) :
    Integrable y μ ∧ Integrable (fun w => d w * (g₁ (ξ w) - g₀ (ξ w))) μ ∧
      ∫ w, y w ∂μ = ∫ w, g₀ (ξ w) ∂μ + ∫ w, d w * (g₁ (ξ w) - g₀ (ξ w)) ∂μ := by
  have b : ∀ w, |d w| ≤ 1 := fun w => by rcases h.binary w with e | e <;> simp [e]
  have i0 : Integrable (fun w => g₀ (ξ w)) μ := h.memG0.integrable one_le_two
  have i1 : Integrable (fun w => d w * (g₁ (ξ w) - g₀ (ξ w))) μ := by
    refine ((memLp_bdd_mul (h.memG1.sub h.memG0) h.measD b).integrable one_le_two).congr (Eventually.of_forall fun w => ?_)
    simp only [Pi.sub_apply]
    ring
  have nz := h.noise.integral_eq (h.measD.prodMk h.measX) (h.memNoise.integrable one_le_two)
  have n : Null μ fun w => y w - (d w * g₁ (ξ w) + (1 - d w) * g₀ (ξ w)) := ⟨h.memNoise.integrable one_le_two, nz⟩
  refine ⟨?_, i1, ?_⟩
  · refine (n.1.add (i0.add i1)).congr (Eventually.of_forall fun w => ?_)
    simp only [Pi.add_apply]
    ring
  · rw [← integral_add i0 i1]
    exact n.integral_eq (i0.add i1) fun w => by ring

theorem IrmLaw.share_pos (h : IrmLaw μ y d ξ g₀ g₁ m τ 2) : Integrable d μ ∧ 0 < ∫ w, d w ∂μ := by
  have b : ∀ w, |d w| ≤ 1 := fun w => by rcases h.binary w with e | e <;> simp [e]
  have id : Integrable d μ := (memLp_of_bdd (p := 1) h.measD b).integrable le_rfl
  have im : Integrable (fun w => m (ξ w)) μ := by
    refine (memLp_of_bdd (p := 1) (C := 1) (h.measM.comp h.measX) fun w => ?_).integrable le_rfl
    have := h.overlap (ξ w)
    have := h.pos
    simp only [Function.comp_apply]
    rw [_root_.abs_le]
    constructor <;> linarith
  have nz : ∫ w, (d w - m (ξ w)) ∂μ = 0 := h.treat.integral_eq h.measX (id.sub im)
  have e : ∫ w, d w ∂μ = ∫ w, m (ξ w) ∂μ := by
    rw [integral_sub id im] at nz
    linarith
  refine ⟨id, ?_⟩
  rw [e]
  have : ∫ _ : S, τ ∂μ ≤ ∫ w, m (ξ w) ∂μ := integral_mono (integrable_const _) im fun w => (h.overlap _).1
  simp only [integral_const, probReal_univ, one_smul] at this
  exact h.pos.trans_le this

/-- The effect on the treated. -/
noncomputable def effectOnTreated (μ : Measure S) (d : S → ℝ) (ξ : S → 𝒳) (g₀ g₁ : 𝒳 → ℝ) : ℝ :=
  (∫ w, d w * (g₁ (ξ w) - g₀ (ξ w)) ∂μ) / ∫ w, d w ∂μ

/-- The common part of `ATTE` and DiD. -/
theorem treated_core (h : IrmLaw μ y d ξ g₀ g₁ m τ 2) (p : ℝ) :
    (∀ h0 k : 𝒳 → ℝ, Direction μ ξ h0 → BoundedDirection k →
      FlatMean μ (fun t w => p⁻¹ * (y w - armVal y (fun w => 1 - d w) ξ (fun x => g₀ x + t * h0 x) (fun x => 1 - (m x + t * k x)) w -
        effectOnTreated μ d ξ g₀ g₁ * d w)) 0) ∧
    ∀ g0' m' : 𝒳 → ℝ, Guess μ ξ g₀ g0' → ProbGuess m' → ((∀ x, g0' x = g₀ x) ∨ ∀ x, m' x = m x) →
      Null μ fun w => p⁻¹ * (y w - armVal y (fun w => 1 - d w) ξ g0' (fun x => 1 - m' x) w - effectOnTreated μ d ξ g₀ g₁ * d w) := by
  have a0 := h.untreated one_le_two
  obtain ⟨iy, i1, ey⟩ := h.outcome
  obtain ⟨id, hd⟩ := h.share_pos
  have et : effectOnTreated μ d ξ g₀ g₁ * ∫ w, d w ∂μ = ∫ w, d w * (g₁ (ξ w) - g₀ (ξ w)) ∂μ := by
    unfold effectOnTreated
    exact div_mul_cancel₀ _ hd.ne'
  constructor
  · intro h0 k d0 dk
    have f := (((FlatMean.const iy).sub (a0.path_compl d0 dk h.measM)).sub ((FlatMean.const id).smul (effectOnTreated μ d ξ g₀ g₁))).smul p⁻¹
    rw [et, ey] at f
    have e0 : p⁻¹ * (∫ w, g₀ (ξ w) ∂μ + ∫ w, d w * (g₁ (ξ w) - g₀ (ξ w)) ∂μ - ∫ w, g₀ (ξ w) ∂μ -
        ∫ w, d w * (g₁ (ξ w) - g₀ (ξ w)) ∂μ) = 0 := by ring
    rw [e0] at f
    exact f
  · intro g0' m' G0 M hr
    have i0 := a0.guess G0 M.compl (hr.imp (fun q => q) fun q x => by rw [q x])
    refine ((((HasMean.of iy).sub i0).sub ((HasMean.of id).smul _)).smul p⁻¹).null ?_
    rw [et, ey]
    ring

theorem ProbGuess.ne {m' : 𝒳 → ℝ} (h : ProbGuess m') (x : 𝒳) : m' x ≠ 0 ∧ 1 - m' x ≠ 0 := by
  obtain ⟨σ, hσ, hb⟩ := h.bdd
  have := hb x
  exact ⟨(by linarith : 0 < m' x).ne', (by linarith : 0 < 1 - m' x).ne'⟩

omit [IsProbabilityMeasure μ] in
/-- Near the truth, a path of probabilities stays away from zero and one. -/
theorem IrmLaw.near (h : IrmLaw μ y d ξ g₀ g₁ m τ 2) {k : 𝒳 → ℝ} (dk : BoundedDirection k) :
    ∃ δ, 0 < δ ∧ ∀ t, |t| ≤ δ → ∀ x, m x + t * k x ≠ 0 ∧ 1 - (m x + t * k x) ≠ 0 := by
  obtain ⟨B, hB⟩ := dk.bdd
  have hτ := h.pos
  refine ⟨τ / 2 / (|B| + 1), by positivity, fun t ht x => ?_⟩
  have h1 : |t * k x| ≤ τ / 2 := by
    rw [abs_mul]
    calc |t| * |k x| ≤ τ / 2 / (|B| + 1) * (|B| + 1) :=
          mul_le_mul ht ((hB x).trans (by linarith [le_abs_self B])) (abs_nonneg _) (by positivity)
      _ = τ / 2 := div_mul_cancel₀ _ (by positivity)
  have h2 := _root_.abs_le.1 h1
  have h3 := h.overlap x
  exact ⟨(by linarith : 0 < m x + t * k x).ne', (by linarith : 0 < 1 - (m x + t * k x)).ne'⟩

/-- IRM, `ATTE`: the parameter is the effect on the treated.  The score has mean zero there if `g₀` or `m` is right, whatever is
used for `g₁`. -/
theorem C78_irm_atte (h : IrmLaw μ y d ξ g₀ g₁ m τ 2) :
    Identifies μ (fun w => atteObs (∫ w, d w ∂μ) (y w) (d w) (g₀ (ξ w)) (g₁ (ξ w)) (m (ξ w))) (effectOnTreated μ d ξ g₀ g₁) ∧
    (∀ h0 h1 k : 𝒳 → ℝ, Direction μ ξ h0 → BoundedDirection k →
      OrthogonalAlong μ (fun t w => atteObs (∫ w, d w ∂μ) (y w) (d w) (g₀ (ξ w) + t * h0 (ξ w)) (g₁ (ξ w) + t * h1 (ξ w))
        (m (ξ w) + t * k (ξ w))) (effectOnTreated μ d ξ g₀ g₁)) ∧
    ∀ g0' g1' m' : 𝒳 → ℝ, Guess μ ξ g₀ g0' → ProbGuess m' → ((∀ x, g0' x = g₀ x) ∨ ∀ x, m' x = m x) →
      expScore μ (fun w => atteObs (∫ w, d w ∂μ) (y w) (d w) (g0' (ξ w)) (g1' (ξ w)) (m' (ξ w))) (effectOnTreated μ d ξ g₀ g₁) = 0 := by
  obtain ⟨fl, nl⟩ := treated_core h (∫ w, d w ∂μ)
  obtain ⟨id, hd⟩ := h.share_pos
  have rob : ∀ g0' g1' m' : 𝒳 → ℝ, Guess μ ξ g₀ g0' → ProbGuess m' → ((∀ x, g0' x = g₀ x) ∨ ∀ x, m' x = m x) →
      Null μ fun w => (atteObs (∫ w, d w ∂μ) (y w) (d w) (g0' (ξ w)) (g1' (ξ w)) (m' (ξ w))).score (effectOnTreated μ d ξ g₀ g₁) 0 := by
    intro g0' g1' m' G M hr
    have := nl g0' m' G M hr
    have e := funext fun w => atte_score (y := y) (d := d) (ξ := ξ) (∫ w, d w ∂μ) (effectOnTreated μ d ξ g₀ g₁) g0' g1' m' w (M.ne _).1 (M.ne _).2
    rw [e]
    exact this
  have self0 : Guess μ ξ g₀ g₀ := ⟨h.measG0, by simp⟩
  have selfm : ProbGuess m := ⟨h.measM, τ, h.pos, h.overlap⟩
  refine ⟨?_, fun h0 h1 k d0 dk => ?_, fun g0' g1' m' G0 M hr => (rob g0' g1' m' G0 M hr).2⟩
  · have n0 := rob g₀ g₁ m self0 selfm (Or.inr fun _ => rfl)
    refine identifies_of ?_ n0.1 n0.2 ?_
    · exact (id.div_const _).neg
    · show ∫ w, -(d w / ∫ w, d w ∂μ) ∂μ ≠ 0
      rw [integral_neg, integral_div, div_self hd.ne']
      norm_num
  · obtain ⟨δ, hδ, hne⟩ := h.near dk
    exact ((fl h0 k d0 dk).congr_near hδ fun t ht w => atte_score _ _ (fun x => g₀ x + t * h0 x) (fun x => g₁ x + t * h1 x)
      (fun x => m x + t * k x) w (hne t ht _).1 (hne t ht _).2).hasDerivAt

/-- DiD with panel data, observational score: `y` is the change of the outcome, the parameter is the effect on the treated. -/
theorem C78_did (h : IrmLaw μ y d ξ g₀ g₁ m τ 2) :
    Identifies μ (fun w => didElems .observational false (obs (y w)) (obs (d w)) (obs (g₀ (ξ w))) (obs (g₁ (ξ w))) (obs (m (ξ w)))
      (obs (∫ w, d w ∂μ))) (effectOnTreated μ d ξ g₀ g₁) ∧
    (∀ h0 h1 k : 𝒳 → ℝ, Direction μ ξ h0 → BoundedDirection k →
      OrthogonalAlong μ (fun t w => didElems .observational false (obs (y w)) (obs (d w)) (obs (g₀ (ξ w) + t * h0 (ξ w)))
        (obs (g₁ (ξ w) + t * h1 (ξ w))) (obs (m (ξ w) + t * k (ξ w))) (obs (∫ w, d w ∂μ))) (effectOnTreated μ d ξ g₀ g₁)) ∧
    ∀ (g0' g1' m' : 𝒳 → ℝ) (p' : ℝ), Guess μ ξ g₀ g0' → ProbGuess m' → ((∀ x, g0' x = g₀ x) ∨ ∀ x, m' x = m x) →
      expScore μ (fun w => didElems .observational false (obs (y w)) (obs (d w)) (obs (g0' (ξ w))) (obs (g1' (ξ w))) (obs (m' (ξ w)))
        (obs p')) (effectOnTreated μ d ξ g₀ g₁) = 0 := by
  obtain ⟨fl, _⟩ := treated_core h (∫ w, d w ∂μ)
  obtain ⟨id, hd⟩ := h.share_pos
  have rob : ∀ (g0' g1' m' : 𝒳 → ℝ) (p' : ℝ), Guess μ ξ g₀ g0' → ProbGuess m' → ((∀ x, g0' x = g₀ x) ∨ ∀ x, m' x = m x) →
      Null μ fun w => (didElems .observational false (obs (y w)) (obs (d w)) (obs (g0' (ξ w))) (obs (g1' (ξ w))) (obs (m' (ξ w)))
        (obs p')).score (effectOnTreated μ d ξ g₀ g₁) 0 := by
    intro g0' g1' m' p' G M hr
    have := (treated_core h p').2 g0' m' G M hr
    have e := funext fun w => did_score (y := y) (d := d) (ξ := ξ) p' (effectOnTreated μ d ξ g₀ g₁) g0' g1' m' w (M.ne _).2
    rw [e]
    exact this
  have self0 : Guess μ ξ g₀ g₀ := ⟨h.measG0, by simp⟩
  have selfm : ProbGuess m := ⟨h.measM, τ, h.pos, h.overlap⟩
  refine ⟨?_, fun h0 h1 k d0 dk => ?_, fun g0' g1' m' p' G0 M hr => (rob g0' g1' m' p' G0 M hr).2⟩
  · have n0 := rob g₀ g₁ m (∫ w, d w ∂μ) self0 selfm (Or.inr fun _ => rfl)
    refine identifies_of ?_ n0.1 n0.2 ?_
    · exact (id.div_const _).const_mul _
    · show ∫ w, -1 * (d w / ∫ w, d w ∂μ) ∂μ ≠ 0
      rw [integral_const_mul, integral_div, div_self hd.ne']
      norm_num
  · obtain ⟨δ, hδ, hne⟩ := h.near dk
    exact ((fl h0 k d0 dk).congr_near hδ fun t ht w => did_score _ _ (fun x => g₀ x + t * h0 x) (fun x => g₁ x + t * h1 x)
      (fun x => m x + t * k x) w (hne t ht _).2).hasDerivAt

omit mS [MeasurableSpace 𝒳] in
theorem did_exp_score (p θ : ℝ) (g0' g1' : 𝒳 → ℝ) (m' : ℝ) (w : S) (hp : p ≠ 0) (hp1 : 1 - p ≠ 0) :
    (didElems .experimental false (obs (y w)) (obs (d w)) (obs (g0' (ξ w))) (obs (g1' (ξ w))) (obs m') (obs p)).score θ 0 =
      armVal y d ξ g1' (fun _ => p) w - armVal y (fun w => 1 - d w) ξ g0' (fun _ => 1 - p) w - θ := by
  simp only [PsiElems.score, didElems, didWa, didWr, didB1, obs, armVal]
  field_simp
  ring

/-- DiD with panel data, experimental score: if the treatment does not depend on the covariates, the score has mean zero at the
mean of `g₁(ξ) - g₀(ξ)` whatever is used for the outcome models; so it identifies it and is orthogonal. -/
theorem C78_did_experimental {p : ℝ} (h : IrmLaw μ y d ξ g₀ g₁ (fun _ => p) τ 2) (m' : 𝒳 → ℝ) :
    (∀ g0' g1' : 𝒳 → ℝ, Guess μ ξ g₀ g0' → Guess μ ξ g₁ g1' →
      Identifies μ (fun w => didElems .experimental false (obs (y w)) (obs (d w)) (obs (g0' (ξ w))) (obs (g1' (ξ w))) (obs (m' (ξ w)))
        (obs p)) (∫ w, (g₁ (ξ w) - g₀ (ξ w)) ∂μ)) ∧
    ∀ h0 h1 : 𝒳 → ℝ, Direction μ ξ h0 → Direction μ ξ h1 →
      OrthogonalAlong μ (fun t w => didElems .experimental false (obs (y w)) (obs (d w)) (obs (g₀ (ξ w) + t * h0 (ξ w)))
        (obs (g₁ (ξ w) + t * h1 (ξ w))) (obs (m' (ξ w))) (obs p)) (∫ w, (g₁ (ξ w) - g₀ (ξ w)) ∂μ) := by
  have a1 := h.treated one_le_two
  have a0 := h.untreated one_le_two
  have selfm : ProbGuess fun _ : 𝒳 => p := ⟨h.measM, τ, h.pos, h.overlap⟩
  have sp : ∫ w, (g₁ (ξ w) - g₀ (ξ w)) ∂μ = ∫ w, g₁ (ξ w) ∂μ - ∫ w, g₀ (ξ w) ∂μ :=
    integral_sub (a1.memG.integrable one_le_two) (a0.memG.integrable one_le_two)
  have hne : ∀ _ : S, p ≠ 0 ∧ 1 - p ≠ 0 := fun w => selfm.ne (ξ w)
  have rob : ∀ g0' g1' : 𝒳 → ℝ, Guess μ ξ g₀ g0' → Guess μ ξ g₁ g1' →
      Null μ fun w => (didElems .experimental false (obs (y w)) (obs (d w)) (obs (g0' (ξ w))) (obs (g1' (ξ w))) (obs (m' (ξ w)))
        (obs p)).score (∫ w, (g₁ (ξ w) - g₀ (ξ w)) ∂μ) 0 := by
    intro g0' g1' G0 G1
    have i1 := a1.guess G1 selfm (Or.inr fun _ => rfl)
    have i0 := a0.guess G0 selfm.compl (Or.inr fun _ => rfl)
    have e := funext fun w => did_exp_score (y := y) (d := d) (ξ := ξ) p (∫ w, (g₁ (ξ w) - g₀ (ξ w)) ∂μ) g0' g1' (m' (ξ w)) w (hne w).1 (hne w).2
    rw [e]
    exact ((i1.sub i0).sub (HasMean.const _)).null (by rw [sp]; ring)
  refine ⟨fun g0' g1' G0 G1 => ?_, fun h0 h1 d0 d1 => ?_⟩
  · have n0 := rob g0' g1' G0 G1
    refine identifies_of ?_ n0.1 n0.2 ?_
    · have := integrable_const (μ := μ) (-1 * 1 : ℝ)
      exact this
    · simp [didElems, didWa]
  · refine orthogonal_of_sq (c := 0) fun t => ?_
    rw [mul_zero]
    exact (rob (fun x => g₀ x + t * h0 x) (fun x => g₁ x + t * h1 x)
      ⟨h.measG0.add (d0.meas.const_mul t), (d0.mem.const_mul t).ae_eq (Eventually.of_forall fun w => by simp)⟩
      ⟨h.measG1.add (d1.meas.const_mul t), (d1.mem.const_mul t).ae_eq (Eventually.of_forall fun w => by simp)⟩).2

/-! ### Instruments -/

omit mS [MeasurableSpace 𝒳] in
theorem iivm_score (θ : ℝ) (z : S → ℝ) (g0' g1' m' r0' r1' : 𝒳 → ℝ) (w : S) :
    (iivmElems false (obs (y w)) (obs (z w)) (obs (d w)) (obs (g0' (ξ w))) (obs (g1' (ξ w))) (obs (m' (ξ w))) (obs (r0' (ξ w)))
      (obs (r1' (ξ w)))).score θ 0 =
      (armVal y z ξ g1' m' w - armVal y (fun w => 1 - z w) ξ g0' (fun x => 1 - m' x) w) -
        θ * (armVal d z ξ r1' m' w - armVal d (fun w => 1 - z w) ξ r0' (fun x => 1 - m' x) w) := by
  simp only [PsiElems.score, iivmElems, obs, Bool.false_eq_true, if_false, armVal]
  ring

omit mS [MeasurableSpace 𝒳] in
theorem iivm_a (z : S → ℝ) (g0' g1' m' r0' r1' : 𝒳 → ℝ) (w : S) :
    (iivmElems false (obs (y w)) (obs (z w)) (obs (d w)) (obs (g0' (ξ w))) (obs (g1' (ξ w))) (obs (m' (ξ w))) (obs (r0' (ξ w)))
      (obs (r1' (ξ w)))).a 0 = -1 * (armVal d z ξ r1' m' w - armVal d (fun w => 1 - z w) ξ r0' (fun x => 1 - m' x) w) := by
  simp only [iivmElems, obs, Bool.false_eq_true, if_false, armVal]
  ring

/-- IIVM: `g_j(ξ) = E[y | z = j, ξ]`, `r_j(ξ) = E[d | z = j, ξ]` and `m(ξ) = E[z | ξ]`; the parameter is the ratio of the mean of
`g₁ - g₀` and the mean of `r₁ - r₀`; doubly robust. -/
theorem C78_iivm {z : S → ℝ} {r₀ r₁ : 𝒳 → ℝ} (hy : IrmLaw μ y z ξ g₀ g₁ m τ 2) (hd : IrmLaw μ d z ξ r₀ r₁ m τ 2)
    (relevant : ∫ w, (r₁ (ξ w) - r₀ (ξ w)) ∂μ ≠ 0) {late : ℝ}
    (hlate : late = (∫ w, (g₁ (ξ w) - g₀ (ξ w)) ∂μ) / ∫ w, (r₁ (ξ w) - r₀ (ξ w)) ∂μ) :
    Identifies μ (fun w => iivmElems false (obs (y w)) (obs (z w)) (obs (d w)) (obs (g₀ (ξ w))) (obs (g₁ (ξ w))) (obs (m (ξ w)))
      (obs (r₀ (ξ w))) (obs (r₁ (ξ w)))) late ∧
    (∀ h0 h1 k q0 q1 : 𝒳 → ℝ, Direction μ ξ h0 → Direction μ ξ h1 → BoundedDirection k → Direction μ ξ q0 → Direction μ ξ q1 →
      OrthogonalAlong μ (fun t w => iivmElems false (obs (y w)) (obs (z w)) (obs (d w)) (obs (g₀ (ξ w) + t * h0 (ξ w)))
        (obs (g₁ (ξ w) + t * h1 (ξ w))) (obs (m (ξ w) + t * k (ξ w))) (obs (r₀ (ξ w) + t * q0 (ξ w))) (obs (r₁ (ξ w) + t * q1 (ξ w)))) late) ∧
    ∀ g0' g1' m' r0' r1' : 𝒳 → ℝ, Guess μ ξ g₀ g0' → Guess μ ξ g₁ g1' → ProbGuess m' → Guess μ ξ r₀ r0' → Guess μ ξ r₁ r1' →
      (((∀ x, g0' x = g₀ x) ∧ (∀ x, g1' x = g₁ x) ∧ (∀ x, r0' x = r₀ x) ∧ ∀ x, r1' x = r₁ x) ∨ ∀ x, m' x = m x) →
      expScore μ (fun w => iivmElems false (obs (y w)) (obs (z w)) (obs (d w)) (obs (g0' (ξ w))) (obs (g1' (ξ w))) (obs (m' (ξ w)))
        (obs (r0' (ξ w))) (obs (r1' (ξ w)))) late = 0 := by
  have y1 := hy.treated one_le_two
  have y0 := hy.untreated one_le_two
  have d1 := hd.treated one_le_two
  have d0 := hd.untreated one_le_two
  have spy : ∫ w, (g₁ (ξ w) - g₀ (ξ w)) ∂μ = ∫ w, g₁ (ξ w) ∂μ - ∫ w, g₀ (ξ w) ∂μ :=
    integral_sub (y1.memG.integrable one_le_two) (y0.memG.integrable one_le_two)
  have spd : ∫ w, (r₁ (ξ w) - r₀ (ξ w)) ∂μ = ∫ w, r₁ (ξ w) ∂μ - ∫ w, r₀ (ξ w) ∂μ :=
    integral_sub (d1.memG.integrable one_le_two) (d0.memG.integrable one_le_two)
  have e0 : (∫ w, g₁ (ξ w) ∂μ - ∫ w, g₀ (ξ w) ∂μ) - late * (∫ w, r₁ (ξ w) ∂μ - ∫ w, r₀ (ξ w) ∂μ) = 0 := by
    rw [← spy, ← spd, hlate, div_mul_cancel₀ _ relevant, sub_self]
  have rob : ∀ g0' g1' m' r0' r1' : 𝒳 → ℝ, Guess μ ξ g₀ g0' → Guess μ ξ g₁ g1' → ProbGuess m' → Guess μ ξ r₀ r0' → Guess μ ξ r₁ r1' →
      (((∀ x, g0' x = g₀ x) ∧ (∀ x, g1' x = g₁ x) ∧ (∀ x, r0' x = r₀ x) ∧ ∀ x, r1' x = r₁ x) ∨ ∀ x, m' x = m x) →
      Null μ fun w => (iivmElems false (obs (y w)) (obs (z w)) (obs (d w)) (obs (g0' (ξ w))) (obs (g1' (ξ w))) (obs (m' (ξ w)))
        (obs (r0' (ξ w))) (obs (r1' (ξ w)))).score late 0 := by
    intro g0' g1' m' r0' r1' G0 G1 M R0 R1 hr
    have iy1 := y1.guess G1 M (hr.imp (fun q => q.2.1) id)
    have iy0 := y0.guess G0 M.compl (hr.imp (fun q => q.1) fun q x => by rw [q x])
    have id1 := d1.guess R1 M (hr.imp (fun q => q.2.2.2) id)
    have id0 := d0.guess R0 M.compl (hr.imp (fun q => q.2.2.1) fun q x => by rw [q x])
    simp only [iivm_score]
    exact ((iy1.sub iy0).sub ((id1.sub id0).smul late)).null e0
  have selfm : ProbGuess m := ⟨hy.measM, τ, hy.pos, hy.overlap⟩
  refine ⟨?_, fun h0 h1 k q0 q1 dh0 dh1 dk dq0 dq1 => ?_, fun g0' g1' m' r0' r1' G0 G1 M R0 R1 hr => (rob g0' g1' m' r0' r1' G0 G1 M R0 R1 hr).2⟩
  · have nl := rob g₀ g₁ m r₀ r₁ ⟨hy.measG0, by simp⟩ ⟨hy.measG1, by simp⟩ selfm ⟨hd.measG0, by simp⟩ ⟨hd.measG1, by simp⟩
      (Or.inr fun _ => rfl)
    have id1 := d1.guess ⟨hd.measG1, by simp⟩ selfm (Or.inr fun _ => rfl)
    have id0 := d0.guess ⟨hd.measG0, by simp⟩ selfm.compl (Or.inr fun _ => rfl)
    have ha := (id1.sub id0).smul (-1)
    refine identifies_of ?_ nl.1 nl.2 ?_
    · simp only [iivm_a]
      exact ha.1
    · simp only [iivm_a]
      rw [ha.2, ← spd]
      simpa using relevant
  · exact orthogonal_of (((y1.path dh1 dk).sub (y0.path_compl dh0 dk hy.measM)).sub
      (((d1.path dq1 dk).sub (d0.path_compl dq0 dk hy.measM)).smul late)) fun t w =>
      iivm_score _ z (fun x => g₀ x + t * h0 x) (fun x => g₁ x + t * h1 x) (fun x => m x + t * k x) (fun x => r₀ x + t * q0 x)
        (fun x => r₁ x + t * q1 x) w

end Irm

end DML
