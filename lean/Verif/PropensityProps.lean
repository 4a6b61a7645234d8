import Verif.Scores

/-!
# Trimming (C39) and normalisation (C40) of inverse-probability weights
-/

namespace DML

open Finset

variable {n : ℕ}

/-- A binary variable. -/
def Binary (d : Fin n → ℝ) : Prop := ∀ i, d i = 0 ∨ d i = 1

/-! ## C39 -/

/-- **C39.** Exactly the rule `"truncate"` with a float threshold strictly between 0 and 1/2 is accepted. -/
theorem C39_accepted_iff (rule threshold : PyVal) (t : ℝ) :
    checkTrimming rule threshold = .ok t ↔ rule = .str "truncate" ∧ threshold = .float t ∧ 0 < t ∧ t < 1 / 2 := by
  unfold checkTrimming
  split
  · cases threshold with
    | float x =>
      dsimp only
      split_ifs with h
      · constructor
        · intro h'; cases h'
        · rintro ⟨_, h2, h3, h4⟩
          cases h2
          rcases h with h | h
          · exact absurd h3 (not_lt.2 h)
          · exact absurd h4 (not_lt.2 h)
      · push Not at h
        constructor
        · intro h'
          cases h'
          exact ⟨rfl, rfl, h⟩
        · rintro ⟨_, h2, _⟩
          cases h2
          rfl
    | _ => simp
  · rename_i h
    constructor
    · intro h'; cases h'
    · rintro ⟨h1, _⟩
      exact absurd h1 (h)

/-- **C39.** Trimmed propensities lie in `[t, 1 - t]`; values already inside are untouched. -/
theorem C39_range {t : ℝ} (ht : t < 1 / 2) (p : ℝ) :
    t ≤ trim t p ∧ trim t p ≤ 1 - t ∧ (t ≤ p → p ≤ 1 - t → trim t p = p) := by
  unfold trim
  refine ⟨le_min (by linarith) (le_max_right _ _), min_le_left _ _, ?_⟩
  intro h1 h2
  rw [max_eq_left h1, min_eq_right h2]

/-- **C39.** Trimming is idempotent and monotone. -/
theorem C39_idempotent_monotone {t : ℝ} (ht : t < 1 / 2) :
    (∀ p, trim t (trim t p) = trim t p) ∧ Monotone (trim t) := by
  constructor
  · intro p
    obtain ⟨h1, h2, _⟩ := C39_range ht p
    exact (C39_range ht (trim t p)).2.2 h1 h2
  · intro p q h
    exact min_le_min_left _ (max_le_max_right _ h)

/-- **C39.** Trimming moves a propensity to the nearest admissible value. -/
theorem C39_nearest {t : ℝ} (p q : ℝ) (h1 : t ≤ q) (h2 : q ≤ 1 - t) : |trim t p - p| ≤ |q - p| := by
  unfold trim
  rcases le_total p t with h | h
  · rw [max_eq_right h, min_eq_right (h1.trans h2), abs_of_nonneg (by linarith), abs_of_nonneg (by linarith)]
    linarith
  · rw [max_eq_left h]
    rcases le_total p (1 - t) with h' | h'
    · rw [min_eq_right h']
      simp
    · rw [min_eq_left h', abs_of_nonpos (by linarith), abs_of_nonpos (by linarith)]
      linarith

/-- **C39.** Without normalisation every inverse-probability weight used in the IRM, APO, IIVM, PQ, CVaR, LPQ
scores is at most `1 / t`, and the odds weights of the DiD scores are at most `(1 - t) / t`. -/
theorem C39_weights_bounded {t : ℝ} (h0 : 0 < t) (ht : t < 1 / 2) (d p : ℝ) (hd : d = 0 ∨ d = 1) :
    d / trim t p ≤ 1 / t ∧ (1 - d) / (1 - trim t p) ≤ 1 / t ∧ trim t p / (1 - trim t p) ≤ (1 - t) / t ∧
    0 ≤ d / trim t p ∧ 0 ≤ (1 - d) / (1 - trim t p) := by
  obtain ⟨h1, h2, _⟩ := C39_range ht p
  have h3 : 0 < trim t p := by linarith
  have h4 : 0 < 1 - trim t p := by linarith
  have hd0 : 0 ≤ d := by rcases hd with h | h <;> rw [h]; norm_num
  have hd1 : d ≤ 1 := by rcases hd with h | h <;> rw [h]; norm_num
  refine ⟨?_, ?_, ?_, div_nonneg hd0 h3.le, div_nonneg (by linarith) h4.le⟩
  · exact div_le_div₀ zero_le_one hd1 h0 h1
  · exact div_le_div₀ zero_le_one (by linarith) h0 (by linarith)
  · exact div_le_div₀ (by linarith) h2 h0 (by linarith)

example : checkTrimming (.str "truncate") (.float 0.01) = .ok 0.01 :=
  (C39_accepted_iff _ _ _).2 ⟨rfl, rfl, by norm_num, by norm_num⟩

/-! ## C40 -/

/-- On the treated the normalised propensity is `m` times the average weight, on the untreated the complement
is `1 - m` times the average weight. -/
theorem normalizeIpw_treated (m d : Fin n → ℝ) {i : Fin n} (h : d i = 1) :
    normalizeIpw m d i = m i * mean fun j => d j / m j := by
  unfold normalizeIpw
  rw [h]
  ring

theorem normalizeIpw_untreated (m d : Fin n → ℝ) {i : Fin n} (h : d i = 0) :
    normalizeIpw m d i = 1 - (1 - m i) * mean fun j => (1 - d j) / (1 - m j) := by
  unfold normalizeIpw
  rw [h]
  ring

theorem mean_pos_of {f : Fin n → ℝ} (h : ∀ i, 0 ≤ f i) {k : Fin n} (hk : 0 < f k) : 0 < mean f := by
  unfold mean
  have : 0 < ∑ i, f i := Finset.sum_pos' (fun i _ => h i) ⟨k, mem_univ k, hk⟩
  have hn : (0 : ℝ) < n := by exact_mod_cast k.pos
  positivity

theorem mean_ipw_pos {m d : Fin n → ℝ} (hd : Binary d) (hm : ∀ i, 0 < m i) {k : Fin n} (hk : d k = 1) :
    0 < mean fun j => d j / m j := by
  refine mean_pos_of (k := k) (fun i => ?_) ?_
  · rcases hd i with h | h <;> rw [h]
    · simp
    · exact div_nonneg zero_le_one (hm i).le
  · rw [hk]
    exact div_pos one_pos (hm k)

/-- **C40.** IRM, APO, PQ and CVaR (and LPQ with the instrument): after normalisation the weights of the treated
and the weights of the controls average to exactly one. -/
theorem C40_weights_average_one (m d : Fin n → ℝ) (hd : Binary d) (hm : ∀ i, 0 < m i ∧ m i < 1)
    {k l : Fin n} (hk : d k = 1) (hl : d l = 0) :
    (mean fun i => d i / normalizeIpw m d i) = 1 ∧ (mean fun i => (1 - d i) / (1 - normalizeIpw m d i)) = 1 := by
  have h1 := mean_ipw_pos hd (fun i => (hm i).1) hk
  have hd' : Binary fun i => 1 - d i := fun i => by
    rcases hd i with h | h <;> simp [h]
  have h0 := mean_ipw_pos (m := fun i => 1 - m i) hd' (fun i => by linarith [(hm i).2]) (k := l) (by simp [hl])
  constructor
  · have : (fun i => d i / normalizeIpw m d i) = fun i => d i / m i / mean fun j => d j / m j := by
      funext i
      rcases hd i with h | h
      · rw [h]; simp
      · rw [normalizeIpw_treated m d h, h, div_div]
    rw [this, mean_div_right, div_self h1.ne']
  · have : (fun i => (1 - d i) / (1 - normalizeIpw m d i)) =
        fun i => (1 - d i) / (1 - m i) / mean fun j => (1 - d j) / (1 - m j) := by
      funext i
      rcases hd i with h | h
      · rw [normalizeIpw_untreated m d h, h, sub_sub_cancel, div_div]
      · rw [h]; simp
    rw [this, mean_div_right, div_self h0.ne']

/-- **C40.** Normalisation changes the relative sizes of the weights neither among the treated nor among the
controls. -/
theorem C40_relative_weights (m d : Fin n → ℝ) {i j : Fin n} (hi : d i = 1) (hj : d j = 1)
    (hc : (mean fun j => d j / m j) ≠ 0) :
    1 / normalizeIpw m d i / (1 / normalizeIpw m d j) = 1 / m i / (1 / m j) := by
  rw [normalizeIpw_treated m d hi, normalizeIpw_treated m d hj]
  field_simp

/-- **C40.** The order in which roles are named does not matter: normalising the probability of the control
group for the control indicator gives the complement. -/
theorem C40_complement (m d : Fin n → ℝ) (i : Fin n) :
    normalizeIpw (fun i => 1 - m i) (fun i => 1 - d i) i = 1 - normalizeIpw m d i := by
  unfold normalizeIpw
  simp only [sub_sub_cancel]
  ring

example : Binary (![1, 0] : Fin 2 → ℝ) ∧ (![1, 0] : Fin 2 → ℝ) 0 = 1 ∧ (![1, 0] : Fin 2 → ℝ) 1 = 0 :=
  ⟨fun i => match i with | 0 => .inr rfl | 1 => .inl rfl, rfl, rfl⟩

/-- **C40, violated for IIVM.** With `normalize_ipw=True` the propensities of the instrument are normalised with
the treatment: the weights of the units with `z = 1` need not average to one. -/
theorem C40_iivm_violated : ∃ (z d m : Fin 4 → ℝ), Binary z ∧ Binary d ∧ (∃ k, z k = 1 ∧ d k = 1) ∧ (∃ l, z l = 0 ∧ d l = 0) ∧
    (∀ i, 0 < m i ∧ m i < 1) ∧ (mean fun i => z i / normalizeIpw m d i) ≠ 1 := by
  refine ⟨![1, 1, 0, 0], ![1, 0, 0, 0], fun _ => 1 / 2, ?_, ?_, ⟨0, rfl, rfl⟩, ⟨2, rfl, rfl⟩, fun _ => by norm_num, ?_⟩
  · intro i
    match i with
    | 0 => exact .inr rfl
    | 1 => exact .inr rfl
    | 2 => exact .inl rfl
    | 3 => exact .inl rfl
  · intro i
    match i with
    | 0 => exact .inr rfl
    | 1 => exact .inl rfl
    | 2 => exact .inl rfl
    | 3 => exact .inl rfl
  · simp only [mean, normalizeIpw, Fin.sum_univ_four]
    simp
    norm_num

/-- **C40, IIVM.** What remains true: if everybody complies with the instrument. -/
theorem C40_iivm_partial (m z d : Fin n → ℝ) (hz : Binary z) (hm : ∀ i, 0 < m i ∧ m i < 1)
    {k l : Fin n} (hk : z k = 1) (hl : z l = 0) (hdz : d = z) :
    (mean fun i => z i / normalizeIpw m d i) = 1 ∧ (mean fun i => (1 - z i) / (1 - normalizeIpw m d i)) = 1 := by
  subst hdz
  exact C40_weights_average_one m d hz hm hk hl

/-- **C40, SSM.** The normalised weights of the treated average to the share of treated observations. -/
theorem C40_ssm_partial (dt s pi m : Fin n → ℝ) (hw : ∑ i, dt i * s i / (pi i * m i) ≠ 0) :
    (mean fun i => (∑ j, dt j) / (∑ j, dt j * s j / (pi j * m j)) * (dt i * s i / (pi i * m i))) = mean dt := by
  rw [mean_mul_left]
  unfold mean
  rw [← mul_div_assoc, div_mul_cancel₀ _ hw]

/-- **C40, violated for SSM.** With `normalize_ipw=True` the estimate uses weights for the treated that
average to the treated share, not to one: with outcome predictions 0, outcomes 1 and full selection the
"effect" reported for the treated part is the treated share. -/
theorem C40_ssm_violated : ∃ (dt dc s pi m : Fin 2 → ℝ), (∀ i, dc i = 1 - dt i) ∧ Binary dt ∧ (∃ k, dt k = 1) ∧ (∃ l, dt l = 0) ∧
    (∀ i, s i = 1 ∧ 0 < pi i ∧ 0 < m i ∧ m i < 1) ∧
    (ssmElems true dt dc (fun _ => 0) (fun _ => 0) pi m s dt).coef none = 1 / 2 := by
  refine ⟨![1, 0], ![0, 1], fun _ => 1, fun _ => 1, fun _ => 1 / 2, ?_, ?_, ⟨0, rfl⟩, ⟨1, rfl⟩, fun _ => by norm_num, ?_⟩
  · intro i
    match i with
    | 0 => simp
    | 1 => simp
  · intro i
    match i with
    | 0 => exact .inr rfl
    | 1 => exact .inl rfl
  · simp only [PsiElems.coef, aggObs, mean, ssmElems, Fin.sum_univ_two]
    simp

/-! ## Normalisation and trimming together -/

/-- **C39.** Normalised weights can be as large as the number of observations, never larger. -/
theorem C39_normalised_bound (m d : Fin n → ℝ) (hd : Binary d) (hm : ∀ i, 0 < m i ∧ m i < 1) (i : Fin n) :
    d i / normalizeIpw m d i ≤ n := by
  rcases hd i with h | h
  · rw [h]; simp
  · have h1 := mean_ipw_pos hd (fun i => (hm i).1) h
    rw [normalizeIpw_treated m d h, h]
    have hn : (0 : ℝ) < n := by exact_mod_cast i.pos
    rw [div_le_iff₀ (mul_pos (hm i).1 h1)]
    unfold mean
    have h2 : d i / m i ≤ ∑ j, d j / m j := by
      refine Finset.single_le_sum (f := fun j => d j / m j) (fun j _ => ?_) (mem_univ i)
      rcases hd j with h | h <;> rw [h]
      · simp
      · exact div_nonneg zero_le_one (hm j).1.le
    rw [h] at h2
    have h3 : 1 ≤ m i * ∑ j, d j / m j := by
      have := mul_le_mul_of_nonneg_left h2 (hm i).1.le
      rwa [mul_one_div_cancel (hm i).1.ne'] at this
    calc (1 : ℝ) ≤ m i * ∑ j, d j / m j := h3
      _ = n * (m i * ((∑ j, d j / m j) / n)) := by field_simp

/-- **C39, violated with normalisation.** Trimmed propensities that are normalised afterwards (as all models do)
can have weights above `1 / t`. -/
theorem C39_normalised_violated : ∃ (t : ℝ) (p d : Fin 3 → ℝ), 0 < t ∧ t < 1 / 2 ∧ Binary d ∧ (∃ l, d l = 0) ∧
    ∃ k, 1 / t < d k / normalizeIpw (fun i => trim t (p i)) d k := by
  refine ⟨2 / 5, fun _ => 1 / 2, ![1, 0, 0], by norm_num, by norm_num, ?_, ⟨1, rfl⟩, 0, ?_⟩
  · intro i
    match i with
    | 0 => exact .inr rfl
    | 1 => exact .inl rfl
    | 2 => exact .inl rfl
  · have : trim (2 / 5) (1 / 2) = 1 / 2 := (C39_range (by norm_num) _).2.2 (by norm_num) (by norm_num)
    simp only [normalizeIpw, mean, Fin.sum_univ_three, this]
    simp
    norm_num

/-- **C39, violated for SSM.** The selection probabilities are not trimmed: the weights of the sample selection
score have no bound. -/
theorem C39_ssm_violated (t B : ℝ) (h0 : 0 < t) (ht : t < 1 / 2) : ∃ pi : ℝ, 0 < pi ∧ pi < 1 ∧
    ∀ p, B < 1 / (trim t p * pi) := by
  refine ⟨1 / (2 * (|B| + 1)), by positivity, ?_, ?_⟩
  · rw [div_lt_one (by positivity)]
    have := abs_nonneg B
    linarith
  · intro p
    obtain ⟨h1, h2, _⟩ := C39_range ht p
    have hp : 0 < trim t p := by linarith
    have hp1 : trim t p < 1 := by linarith
    rw [lt_div_iff₀ (by positivity)]
    have hB : B ≤ |B| := le_abs_self B
    have hB0 := abs_nonneg B
    rw [mul_one_div, ← mul_div_assoc, div_lt_one (by positivity)]
    nlinarith

end DML
