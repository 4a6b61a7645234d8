import Verif.Nonlinear

/-!
# Quantile-type estimates (C43)
-/

namespace DML

open Finset

variable {n : ℕ}

/-! ## The bracket search -/

/-- The moment changes sign between the ends of the bracket. -/
def SignChange (score : ℝ → ℝ) (b : ℝ × ℝ) : Prop := SignType.sign (score b.1) ≠ SignType.sign (score b.2)

theorem bracketLoop_done (score : ℝ → ℝ) (start lo hi : ℝ) (k : ℕ) (b : ℝ × ℝ) :
    bracketLoop score start lo hi k (true, b) = (true, b) := by
  rw [bracketLoop, if_neg (by simp)]

theorem bracketLoop_spec (score : ℝ → ℝ) (start lo hi : ℝ) (j : ℕ) :
    ∀ k, k + j = 11 → ∀ b₀ : ℝ × ℝ,
    (∃ m, k ≤ m ∧ m ≤ 10 ∧ SignChange score (bracketAt start lo hi m) ∧
      (∀ l, k ≤ l → l < m → ¬ SignChange score (bracketAt start lo hi l)) ∧
      bracketLoop score start lo hi k (false, b₀) = (true, bracketAt start lo hi m)) ∨
    ((∀ l, k ≤ l → l ≤ 10 → ¬ SignChange score (bracketAt start lo hi l)) ∧
      bracketLoop score start lo hi k (false, b₀) = (false, if k ≤ 10 then bracketAt start lo hi 10 else b₀)) := by
  induction j with
  | zero =>
    intro k hk b₀
    right
    have hk' : k = 11 := by omega
    subst hk'
    refine ⟨fun l h1 h2 => by omega, ?_⟩
    rw [bracketLoop, if_neg (by norm_num)]
    simp
  | succ j ih =>
    intro k hk b₀
    have hk10 : (k : ℝ) / 10 ≤ 1 := by
      have : (k : ℝ) ≤ 10 := by exact_mod_cast (by omega : k ≤ 10)
      linarith
    rw [bracketLoop, if_pos ⟨rfl, hk10⟩]
    dsimp only
    by_cases hs : SignChange score (bracketAt start lo hi k)
    · left
      refine ⟨k, le_refl _, by omega, hs, fun l h1 h2 => by omega, ?_⟩
      have : decide (SignType.sign (score (bracketAt start lo hi k).1) ≠ SignType.sign (score (bracketAt start lo hi k).2)) =
          true := decide_eq_true hs
      rw [this, bracketLoop_done]
    · have : decide (SignType.sign (score (bracketAt start lo hi k).1) ≠ SignType.sign (score (bracketAt start lo hi k).2)) =
          false := decide_eq_false hs
      rw [this]
      rcases ih (k + 1) (by omega) (bracketAt start lo hi k) with ⟨m, h1, h2, h3, h4, h5⟩ | ⟨h1, h2⟩
      · left
        refine ⟨m, by omega, h2, h3, ?_, h5⟩
        intro l hl hlm
        rcases Nat.eq_or_lt_of_le hl with rfl | hl'
        · exact hs
        · exact h4 l hl' hlm
      · right
        constructor
        · intro l hl hl10
          rcases Nat.eq_or_lt_of_le hl with rfl | hl'
          · exact hs
          · exact h1 l hl' hl10
        · rw [h2, if_pos (by omega : k ≤ 10)]
          by_cases hk1 : k + 1 ≤ 10
          · rw [if_pos hk1]
          · have : k = 10 := by omega
            rw [if_neg hk1, this]

/-- **C43.** The bracket search stops after at most ten passes: it returns the first of the ten brackets
(half-lengths 5 %, 10 %, …, 50 % of the outcome range) on which the moment changes sign and reports success, or
the last one and reports failure if the moment changes sign on none. -/
theorem C43_bracket_search (score : ℝ → ℝ) (start lo hi : ℝ) :
    (∃ m, 1 ≤ m ∧ m ≤ 10 ∧ SignChange score (bracketAt start lo hi m) ∧
      (∀ l, 1 ≤ l → l < m → ¬ SignChange score (bracketAt start lo hi l)) ∧
      bracketGuess score start lo hi = (true, bracketAt start lo hi m)) ∨
    ((∀ l, 1 ≤ l → l ≤ 10 → ¬ SignChange score (bracketAt start lo hi l)) ∧
      bracketGuess score start lo hi = (false, bracketAt start lo hi 10)) := by
  have := bracketLoop_spec score start lo hi 10 1 rfl (lo, hi)
  rwa [if_pos (by omega)] at this

/-- **C43.** Success is reported exactly if the moment changes sign on the returned bracket. -/
theorem C43_success_iff (score : ℝ → ℝ) (start lo hi : ℝ) :
    (bracketGuess score start lo hi).1 = true ↔ SignChange score (bracketGuess score start lo hi).2 := by
  rcases C43_bracket_search score start lo hi with ⟨m, _, _, h3, _, h5⟩ | ⟨h1, h2⟩
  · rw [h5]
    exact ⟨fun _ => h3, fun _ => rfl⟩
  · rw [h2]
    exact ⟨fun h => by simp at h, fun h => absurd h (h1 10 (by omega) (le_refl _))⟩

/-- **C43.** A reported bracket meets the precondition `f(a) f(b) ≤ 0` of the bracketing root finder. -/
theorem C43_root_finder_precondition (score : ℝ → ℝ) (start lo hi : ℝ)
    (h : (bracketGuess score start lo hi).1 = true) :
    score (bracketGuess score start lo hi).2.1 * score (bracketGuess score start lo hi).2.2 ≤ 0 := by
  have hs := (C43_success_iff score start lo hi).1 h
  unfold SignChange at hs
  set a := score (bracketGuess score start lo hi).2.1
  set b := score (bracketGuess score start lo hi).2.2
  by_contra hab
  push Not at hab
  apply hs
  rcases pos_and_pos_or_neg_and_neg_of_mul_pos hab with ⟨h1, h2⟩ | ⟨h1, h2⟩
  · rw [sign_pos h1, sign_pos h2]
  · rw [sign_neg h1, sign_neg h2]

theorem bracketAt_bounds {start lo hi : ℝ} (h1 : lo ≤ start) (h2 : start ≤ hi) (k : ℕ) :
    lo ≤ (bracketAt start lo hi k).1 ∧ (bracketAt start lo hi k).1 ≤ start ∧
    start ≤ (bracketAt start lo hi k).2 ∧ (bracketAt start lo hi k).2 ≤ hi := by
  have h3 : 0 ≤ (k : ℝ) / 10 * (hi - lo) / 2 := by
    have : 0 ≤ hi - lo := by linarith
    positivity
  refine ⟨le_max_right _ _, max_le (by linarith) h1, le_min (by linarith) h2, min_le_right _ _⟩

/-- **C43.** The bracket never leaves the outcome bounds and contains the start value. -/
theorem C43_bracket_in_bounds (score : ℝ → ℝ) {start lo hi : ℝ} (h1 : lo ≤ start) (h2 : start ≤ hi) :
    lo ≤ (bracketGuess score start lo hi).2.1 ∧ (bracketGuess score start lo hi).2.1 ≤ start ∧
    start ≤ (bracketGuess score start lo hi).2.2 ∧ (bracketGuess score start lo hi).2.2 ≤ hi := by
  rcases C43_bracket_search score start lo hi with ⟨m, _, _, _, _, h5⟩ | ⟨_, h5⟩ <;>
  · rw [h5]
    exact bracketAt_bounds h1 h2 _

/-- The contracts of the numerical routines: they stay in their bracket or bounds. -/
structure RootExt.InBounds (E : RootExt) : Prop where
  brentq : ∀ f b, b.1 ≤ b.2 → f b.1 * f b.2 ≤ 0 → b.1 ≤ E.brentq f b ∧ E.brentq f b ≤ b.2
  lbfgs : ∀ f x b, b.1 ≤ b.2 → b.1 ≤ E.lbfgs f x b ∧ E.lbfgs f x b ≤ b.2

/-- **C43.** With bounds given, the estimate lies within the bounds on every branch of the search. -/
theorem C43_estimate_in_bounds {E : RootExt} (hE : E.InBounds) (score meanScore deriv : ℝ → ℝ) {start lo hi : ℝ}
    (h1 : lo ≤ start) (h2 : start ≤ hi) :
    lo ≤ nonlinearCoef E score meanScore deriv start (some (lo, hi)) ∧
    nonlinearCoef E score meanScore deriv start (some (lo, hi)) ≤ hi := by
  have key : ∀ s, lo ≤ s → s ≤ hi → (bracketGuess score s lo hi).1 = true →
      lo ≤ E.brentq score (bracketGuess score s lo hi).2 ∧ E.brentq score (bracketGuess score s lo hi).2 ≤ hi := by
    intro s hs1 hs2 hg
    obtain ⟨b1, b2, b3, b4⟩ := C43_bracket_in_bounds score hs1 hs2
    obtain ⟨c1, c2⟩ := hE.brentq score (bracketGuess score s lo hi).2 (by linarith)
      (C43_root_finder_precondition score s lo hi hg)
    exact ⟨by linarith, by linarith⟩
  have hb : lo ≤ hi := by linarith
  unfold nonlinearCoef
  dsimp only
  split_ifs with hg hg' hpos
  · exact key start h1 h2 hg
  · obtain ⟨a1, a2⟩ := hE.lbfgs (fun t => meanScore t ^ 2) start (lo, hi) hb
    exact key _ a1 a2 hg'
  · exact hE.lbfgs _ start (lo, hi) hb
  · exact hE.lbfgs _ start (lo, hi) hb

/-! ## Monotone step functions -/

/-- The averaged moment `mean (w_i 1{y_i ≤ θ}) + c` of the quantile scores. -/
noncomputable def stepMoment (w y : Fin n → ℝ) (c theta : ℝ) : ℝ := (mean fun i => w i * indLe (y i) theta) + c

theorem indLe_mono {y s t : ℝ} (h : s ≤ t) : indLe y s ≤ indLe y t := by
  unfold indLe
  split_ifs with h1 h2
  · exact le_refl _
  · exact absurd (h1.trans h) h2
  · norm_num
  · exact le_refl _

theorem indLe_nonneg (y t : ℝ) : 0 ≤ indLe y t := by unfold indLe; split_ifs <;> norm_num

theorem stepMoment_mono {w : Fin n → ℝ} (hw : ∀ i, 0 ≤ w i) (y : Fin n → ℝ) (c : ℝ) : Monotone (stepMoment w y c) := by
  intro s t h
  unfold stepMoment
  have := mean_mono (f := fun i => w i * indLe (y i) s) (g := fun i => w i * indLe (y i) t)
    fun i => mul_le_mul_of_nonneg_left (indLe_mono h) (hw i)
  linarith

/-- The averaged IPW moment. -/
noncomputable def ipwMoment (treatment q : ℝ) (d y prop : Fin n → ℝ) (theta : ℝ) : ℝ :=
  mean fun i => ipwScore treatment q theta (d i) (y i) (prop i)

/-- The averaged PQ moment. -/
noncomputable def pqMoment (q : ℝ) (ind g m y : Fin n → ℝ) (theta : ℝ) : ℝ :=
  mean fun i => pqScore q theta (ind i) (g i) (m i) (y i)

theorem ipwMoment_eq (hn : 0 < n) (treatment q : ℝ) (d y prop : Fin n → ℝ) (theta : ℝ) :
    ipwMoment treatment q d y prop theta = stepMoment (fun i => indEq (d i) treatment / prop i) y (-q) theta := by
  unfold ipwMoment stepMoment ipwScore
  rw [mean_sub, mean_const hn]
  ring

theorem pqMoment_eq (hn : 0 < n) (q : ℝ) (ind g m y : Fin n → ℝ) (theta : ℝ) :
    pqMoment q ind g m y theta =
      stepMoment (fun i => ind i / m i) y ((mean fun i => g i - ind i * g i / m i) - q) theta := by
  unfold pqMoment stepMoment pqScore
  have : (fun i => ind i * (indLe (y i) theta - g i) / m i + g i - q) =
      fun i => (ind i / m i * indLe (y i) theta + (g i - ind i * g i / m i)) - q := by
    funext i
    ring
  rw [this, mean_sub, mean_const hn, mean_add]
  ring

/-- **C43.** With positive propensities the IPW and the PQ moment are non-decreasing in the parameter. -/
theorem C43_monotone (hn : 0 < n) (treatment q : ℝ) (d ind g y m : Fin n → ℝ) (hm : ∀ i, 0 < m i)
    (hind : ∀ i, 0 ≤ ind i) : Monotone (ipwMoment treatment q d y m) ∧ Monotone (pqMoment q ind g m y) := by
  constructor
  · intro s t h
    rw [ipwMoment_eq hn, ipwMoment_eq hn]
    refine stepMoment_mono (fun i => ?_) y _ h
    have := hm i
    unfold indEq
    split_ifs <;> positivity
  · intro s t h
    rw [pqMoment_eq hn, pqMoment_eq hn]
    exact stepMoment_mono (fun i => div_nonneg (hind i) (hm i).le) y _ h

theorem stepMoment_congr {w y : Fin n → ℝ} {c s t : ℝ} (h : ∀ i, y i ≤ s ↔ y i ≤ t) :
    stepMoment w y c s = stepMoment w y c t := by
  unfold stepMoment
  congr 2
  funext i
  unfold indLe
  simp only [h i]

/-- **C43.** Both moments are step functions: they only depend on which outcomes are at most `θ`, so they are
constant below the smallest and from the largest outcome on. -/
theorem C43_step (hn : 0 < n) (treatment q : ℝ) (d ind g y m : Fin n → ℝ) {s t : ℝ} (h : ∀ i, y i ≤ s ↔ y i ≤ t) :
    ipwMoment treatment q d y m s = ipwMoment treatment q d y m t ∧
    pqMoment q ind g m y s = pqMoment q ind g m y t := by
  rw [ipwMoment_eq hn, ipwMoment_eq hn, pqMoment_eq hn, pqMoment_eq hn]
  exact ⟨stepMoment_congr h, stepMoment_congr h⟩

/-- **C43.** The IPW moment lies between `-q` (below all outcomes) and `mean (1{d = treatment} / m) - q`
(from the largest outcome on). -/
theorem C43_ipw_range (hn : 0 < n) (treatment q : ℝ) (d y m : Fin n → ℝ) (hm : ∀ i, 0 < m i) (theta : ℝ) :
    -q ≤ ipwMoment treatment q d y m theta ∧
    ipwMoment treatment q d y m theta ≤ (mean fun i => indEq (d i) treatment / m i) - q ∧
    ((∀ i, theta < y i) → ipwMoment treatment q d y m theta = -q) ∧
    ((∀ i, y i ≤ theta) → ipwMoment treatment q d y m theta = (mean fun i => indEq (d i) treatment / m i) - q) := by
  have hw : ∀ i, 0 ≤ indEq (d i) treatment / m i := by
    intro i
    have := hm i
    unfold indEq
    split_ifs <;> positivity
  rw [ipwMoment_eq hn]
  unfold stepMoment
  refine ⟨?_, ?_, ?_, ?_⟩
  · have := mean_nonneg (f := fun i => indEq (d i) treatment / m i * indLe (y i) theta)
      fun i => mul_nonneg (hw i) (indLe_nonneg _ _)
    linarith
  · have := mean_mono (f := fun i => indEq (d i) treatment / m i * indLe (y i) theta)
      (g := fun i => indEq (d i) treatment / m i) fun i => by
        unfold indLe
        split_ifs
        · simp
        · simpa using hw i
    linarith
  · intro h
    have : (fun i => indEq (d i) treatment / m i * indLe (y i) theta) = fun _ => (0 : ℝ) := by
      funext i
      unfold indLe
      rw [if_neg (not_le.2 (h i)), mul_zero]
    rw [this, mean_const hn, zero_add]
  · intro h
    have : (fun i => indEq (d i) treatment / m i * indLe (y i) theta) = fun i => indEq (d i) treatment / m i := by
      funext i
      unfold indLe
      rw [if_pos (h i), mul_one]
    rw [this]
    ring

/-- **C43.** The PQ moment lies between its value below all outcomes and its value from the largest outcome on; the two
differ by the mean inverse propensity weight. -/
theorem C43_pq_range (hn : 0 < n) (q : ℝ) (ind g y m : Fin n → ℝ) (hm : ∀ i, 0 < m i) (hind : ∀ i, 0 ≤ ind i) (theta : ℝ) :
    (mean fun i => g i - ind i * g i / m i) - q ≤ pqMoment q ind g m y theta ∧
    pqMoment q ind g m y theta ≤ (mean fun i => ind i / m i) + (mean fun i => g i - ind i * g i / m i) - q ∧
    ((∀ i, theta < y i) → pqMoment q ind g m y theta = (mean fun i => g i - ind i * g i / m i) - q) ∧
    ((∀ i, y i ≤ theta) →
      pqMoment q ind g m y theta = (mean fun i => ind i / m i) + (mean fun i => g i - ind i * g i / m i) - q) := by
  have hw : ∀ i, 0 ≤ ind i / m i := fun i => div_nonneg (hind i) (hm i).le
  rw [pqMoment_eq hn]
  unfold stepMoment
  refine ⟨?_, ?_, ?_, ?_⟩
  · have := mean_nonneg (f := fun i => ind i / m i * indLe (y i) theta) fun i => mul_nonneg (hw i) (indLe_nonneg _ _)
    linarith
  · have := mean_mono (f := fun i => ind i / m i * indLe (y i) theta) (g := fun i => ind i / m i) fun i => by
        unfold indLe
        split_ifs
        · simp
        · simpa using hw i
    linarith
  · intro h
    have : (fun i => ind i / m i * indLe (y i) theta) = fun _ => (0 : ℝ) := by
      funext i
      unfold indLe
      rw [if_neg (not_le.2 (h i)), mul_zero]
    rw [this, mean_const hn, zero_add]
  · intro h
    have : (fun i => ind i / m i * indLe (y i) theta) = fun i => ind i / m i := by
      funext i
      unfold indLe
      rw [if_pos (h i), mul_one]
    rw [this]
    ring

theorem step_crossing {w y : Fin n → ℝ} (hw : ∀ i, 0 ≤ w i) {c a b : ℝ} (ha : stepMoment w y c a < 0)
    (hb : 0 ≤ stepMoment w y c b) :
    ∃ i, a < y i ∧ y i ≤ b ∧ ∀ theta, (theta < y i → stepMoment w y c theta < 0) ∧
      (y i ≤ theta → 0 ≤ stepMoment w y c theta) := by
  classical
  have hmono := stepMoment_mono hw y c
  let S := univ.filter fun i => 0 ≤ stepMoment w y c (y i)
  have hlast : ∀ t, (∃ i, y i ≤ t) → ∃ j, y j ≤ t ∧ stepMoment w y c t = stepMoment w y c (y j) := by
    rintro t ⟨i, hi⟩
    obtain ⟨j, hj, hmax⟩ := Finset.exists_max_image (univ.filter fun i => y i ≤ t) y ⟨i, by simpa using hi⟩
    have hj' : y j ≤ t := by simpa using hj
    refine ⟨j, hj', stepMoment_congr fun i => ⟨fun h => hmax i (by simpa using h), fun h => h.trans hj'⟩⟩
  have hex : ∃ i, y i ≤ b := by
    by_contra hne
    push Not at hne
    have h1 : stepMoment w y c b ≤ stepMoment w y c a := by
      have h2 : stepMoment w y c b = c := by
        unfold stepMoment
        have : (fun i => w i * indLe (y i) b) = fun _ => (0 : ℝ) := by
          funext i
          unfold indLe
          rw [if_neg (not_le.2 (hne i)), mul_zero]
        rw [this]
        simp [mean]
      have h3 : c ≤ stepMoment w y c a := by
        unfold stepMoment
        have := mean_nonneg (f := fun i => w i * indLe (y i) a) fun i => mul_nonneg (hw i) (indLe_nonneg _ _)
        linarith
      rw [h2]
      exact h3
    linarith
  obtain ⟨j, hjb, hj⟩ := hlast b hex
  obtain ⟨i, hi, hmin⟩ := Finset.exists_min_image S y ⟨j, by simp only [S, Finset.mem_filter, Finset.mem_univ, true_and]; rw [← hj]; exact hb⟩
  have hiS : 0 ≤ stepMoment w y c (y i) := by simpa [S] using hi
  refine ⟨i, ?_, ?_, ?_⟩
  · by_contra h
    push Not at h
    have := hmono h
    linarith
  · have : y i ≤ y j := hmin j (by simp only [S, Finset.mem_filter, Finset.mem_univ, true_and]; rw [← hj]; exact hb)
    linarith
  · intro theta
    constructor
    · intro ht
      by_cases hex' : ∃ k, y k ≤ theta
      · obtain ⟨k, hk, hkm⟩ := hlast theta hex'
        rw [hkm]
        by_contra hge
        push Not at hge
        have : y i ≤ y k := hmin k (by simpa [S] using hge)
        linarith
      · push Not at hex'
        have h2 : stepMoment w y c theta ≤ stepMoment w y c a := by
          unfold stepMoment
          have := mean_mono (f := fun i => w i * indLe (y i) theta) (g := fun i => w i * indLe (y i) a) fun k => by
            refine mul_le_mul_of_nonneg_left ?_ (hw k)
            have : indLe (y k) theta = 0 := by
              unfold indLe
              rw [if_neg (not_le.2 (hex' k))]
            rw [this]
            exact indLe_nonneg _ _
          linarith
        linarith
    · intro ht
      exact hiS.trans (hmono ht)

/-- **C43.** If the PQ moment is negative at one end and non-negative at the other end of a bracket, it crosses
zero at exactly one point, which is an observed outcome in the bracket: a bracketing root finder that looks for
the sign change converges to an observed outcome. -/
theorem C43_unique_crossing (hn : 0 < n) (q : ℝ) (ind g y m : Fin n → ℝ) (hm : ∀ i, 0 < m i)
    (hind : ∀ i, 0 ≤ ind i) {a b : ℝ} (ha : pqMoment q ind g m y a < 0) (hb : 0 ≤ pqMoment q ind g m y b) :
    ∃! t, (∃ i, t = y i) ∧ a < t ∧ t ≤ b ∧ ∀ theta, (theta < t → pqMoment q ind g m y theta < 0) ∧
      (t ≤ theta → 0 ≤ pqMoment q ind g m y theta) := by
  simp only [pqMoment_eq hn] at ha hb ⊢
  obtain ⟨i, h1, h2, h3⟩ := step_crossing (fun i => div_nonneg (hind i) (hm i).le) ha hb
  refine ⟨y i, ⟨⟨i, rfl⟩, h1, h2, h3⟩, ?_⟩
  rintro t ⟨-, -, -, ht⟩
  rcases lt_trichotomy t (y i) with h | h | h
  · have := (ht t).2 (le_refl _)
    have := (h3 t).1 h
    linarith
  · exact h
  · have := (ht (y i)).1 h
    have := (h3 (y i)).2 (le_refl _)
    linarith

/-- Non-vacuity of C43: two observations, median. -/
example : (∀ _ : Fin 2, (0 : ℝ) < 1) ∧ pqMoment (n := 2) (1 / 2 : ℝ) (fun _ => 1) (fun _ => 0) (fun _ => 1)
    (fun i => i.val) (-1) < 0 ∧ 0 ≤ pqMoment (n := 2) (1 / 2 : ℝ) (fun _ => 1) (fun _ => 0) (fun _ => 1)
    (fun i => i.val) 1 := by
  refine ⟨fun _ => one_pos, ?_, ?_⟩
  · unfold pqMoment mean
    rw [Fin.sum_univ_two]
    simp only [pqScore, indLe]
    norm_num
  · unfold pqMoment mean
    rw [Fin.sum_univ_two]
    simp only [pqScore, indLe]
    norm_num

/-- **C43.** The preliminary moment of the local quantile is the final moment without outcome regressions. -/
theorem C43_lpq_preliminary (treatment q theta d y m z comp : ℝ) :
    lpqIpwScore treatment q theta d y m z comp = lpqScore treatment q theta (indEq d treatment) m 0 0 y z comp := by
  unfold lpqIpwScore lpqScore
  ring

/-- **C43.** The local quantile moment is not monotone: with instruments the weights can be negative, so that
the sign-change argument does not carry over. -/
theorem C43_lpq_not_monotone : ¬ Monotone (fun theta : ℝ =>
    mean fun _ : Fin 1 => lpqScore 1 (1 / 2) theta 1 (1 / 2) 0 0 0 0 1) := by
  intro h
  have := h (show (-1 : ℝ) ≤ 0 by norm_num)
  simp [mean, lpqScore, indLe] at this
  norm_num at this

end DML
