import Mathlib.Data.Fin.Tuple.Sort
import Mathlib.Data.Real.Basic
import Mathlib.Analysis.Real.Sqrt
import Mathlib.Algebra.BigOperators.Fin
import Mathlib.Algebra.Order.BigOperators.Group.Finset
import Mathlib.Algebra.Order.Floor.Ring
import Mathlib.Tactic.Linarith
import Mathlib.Tactic.Ring
import Mathlib.Tactic.FieldSimp
import Mathlib.Tactic.Positivity
import Mathlib.Tactic.NormNum

/-!
# Numpy primitives used throughout DoubleML

`np.mean`, `np.median`, `np.quantile` on one-dimensional arrays, and
`_aggregate_coefs_and_ses`.  Arrays of length `n` are functions `Fin n → ℝ`; floating point is
replaced by exact real arithmetic (recorded in DESIGN.md).
-/

namespace DML

open Finset

/-- `np.mean` of a one-dimensional array (used e.g. in /repo/doubleml/utils/_estimation.py:264).
For an empty array numpy gives `nan`; here the quotient is `0/0 = 0`, so every theorem that uses
`mean` on a possibly empty array carries `0 < n`. -/
noncomputable def mean {n : ℕ} (f : Fin n → ℝ) : ℝ := (∑ i, f i) / n

/-- The `k`-th smallest entry (0-based) of an array: entry `k` of `np.sort(f)`. -/
noncomputable def kth {r : ℕ} (f : Fin r → ℝ) (k : Fin r) : ℝ := f (Tuple.sort f k)

/-- `np.median` of a one-dimensional array (/repo/doubleml/utils/_estimation.py:248,254;
double_ml_framework.py:148,671,774): middle entry of the sorted array, or the average of the two
middle entries.  For odd `r` the two indices `(r-1)/2` and `r/2` coincide.  For an empty array numpy
gives `nan`; here `0` (theorems carry `0 < r` where it matters). -/
noncomputable def median {r : ℕ} (f : Fin r → ℝ) : ℝ :=
  if h : 0 < r then
    (kth f ⟨(r - 1) / 2, by omega⟩ + kth f ⟨r / 2, by omega⟩) / 2
  else 0

/-- `np.quantile(a, q)` with numpy's default linear interpolation
(/repo/doubleml/double_ml_framework.py:661): with `h = q (B-1)`, the value
`a_(⌊h⌋) + (h - ⌊h⌋) (a_(⌊h⌋+1) - a_(⌊h⌋))` of the sorted array. -/
noncomputable def quantile {B : ℕ} (f : Fin B → ℝ) (q : ℝ) : ℝ :=
  if h : 0 < B then
    let pos : ℝ := q * ((B : ℝ) - 1)
    let lo : ℕ := min ⌊pos⌋₊ (B - 1)
    let hi : ℕ := min (lo + 1) (B - 1)
    kth f ⟨lo, by omega⟩ + (pos - lo) * (kth f ⟨hi, by omega⟩ - kth f ⟨lo, by omega⟩)
  else 0

/-- First output of `_aggregate_coefs_and_ses` (/repo/doubleml/utils/_estimation.py:242-248) for one
parameter: the median of the estimates over the repetitions. -/
noncomputable def aggTheta {r : ℕ} (allTheta : Fin r → ℝ) : ℝ := median allTheta

/-- Second output of `_aggregate_coefs_and_ses` (/repo/doubleml/utils/_estimation.py:249-256) for one
parameter: `sqrt(median_r(se_r² + (θ_r - median θ)² / scaling_r))`.  The scaling is an array over the
repetitions; the 1-d branch (lines 243-244) repeats one value over the repetitions. -/
noncomputable def aggSe {r : ℕ} (allTheta allSe scaling : Fin r → ℝ) : ℝ :=
  Real.sqrt (median fun k => allSe k ^ 2 + (allTheta k - median allTheta) ^ 2 / scaling k)

/-! ## Lemmas about means -/

section Mean
variable {n : ℕ}

theorem mean_add (f g : Fin n → ℝ) : mean (fun i => f i + g i) = mean f + mean g := by
  simp [mean, Finset.sum_add_distrib, add_div]

theorem mean_sub (f g : Fin n → ℝ) : mean (fun i => f i - g i) = mean f - mean g := by
  simp [mean, Finset.sum_sub_distrib, sub_div]

theorem mean_mul_left (c : ℝ) (f : Fin n → ℝ) : mean (fun i => c * f i) = c * mean f := by
  simp [mean, ← Finset.mul_sum, mul_div_assoc]

theorem mean_mul_right (c : ℝ) (f : Fin n → ℝ) : mean (fun i => f i * c) = mean f * c := by
  simp [mean, ← Finset.sum_mul, div_mul_eq_mul_div]

theorem mean_div_right (c : ℝ) (f : Fin n → ℝ) : mean (fun i => f i / c) = mean f / c := by
  simp only [div_eq_mul_inv]; exact mean_mul_right _ _

theorem mean_neg (f : Fin n → ℝ) : mean (fun i => - f i) = - mean f := by
  simp [mean, neg_div]

theorem mean_const (hn : 0 < n) (c : ℝ) : mean (fun _ : Fin n => c) = c := by
  have : (n : ℝ) ≠ 0 := by positivity
  simp [mean, this]

theorem mean_nonneg {f : Fin n → ℝ} (h : ∀ i, 0 ≤ f i) : 0 ≤ mean f :=
  div_nonneg (Finset.sum_nonneg fun i _ => h i) (Nat.cast_nonneg _)

theorem mean_mono {f g : Fin n → ℝ} (h : ∀ i, f i ≤ g i) : mean f ≤ mean g :=
  div_le_div_of_nonneg_right (Finset.sum_le_sum fun i _ => h i) (Nat.cast_nonneg _)

theorem mean_sq_nonneg (f : Fin n → ℝ) : 0 ≤ mean (fun i => f i ^ 2) :=
  mean_nonneg fun _ => sq_nonneg _

theorem mean_sq_pos_iff (hn : 0 < n) (f : Fin n → ℝ) :
    0 < mean (fun i => f i ^ 2) ↔ ∃ i, f i ≠ 0 := by
  have hn' : (0 : ℝ) < n := by positivity
  unfold mean
  rw [div_pos_iff_of_pos_right hn', Finset.sum_pos_iff_of_nonneg (fun i _ => sq_nonneg _)]
  constructor
  · rintro ⟨i, -, h⟩
    exact ⟨i, fun h0 => by simp [h0] at h⟩
  · rintro ⟨i, h⟩
    exact ⟨i, Finset.mem_univ _, by positivity⟩

/-- Cauchy-Schwarz in the form used for standard errors: the root mean square is a seminorm. -/
theorem sqrt_mean_sq_add_le (f g : Fin n → ℝ) :
    Real.sqrt (mean fun i => (f i + g i) ^ 2) ≤
      Real.sqrt (mean fun i => f i ^ 2) + Real.sqrt (mean fun i => g i ^ 2) := by
  have hF := mean_sq_nonneg f
  have hG := mean_sq_nonneg g
  rw [Real.sqrt_le_left (by positivity)]
  have hcs : (mean fun i => f i * g i) ^ 2 ≤ (mean fun i => f i ^ 2) * (mean fun i => g i ^ 2) := by
    unfold mean
    rw [div_pow, div_mul_div_comm, ← sq]
    apply div_le_div_of_nonneg_right _ (by positivity)
    exact Finset.sum_mul_sq_le_sq_mul_sq _ _ _
  have hexp : (mean fun i => (f i + g i) ^ 2)
      = (mean fun i => f i ^ 2) + 2 * (mean fun i => f i * g i) + mean fun i => g i ^ 2 := by
    rw [← mean_mul_left, ← mean_add, ← mean_add]
    congr 1; funext i; ring
  have hle : (mean fun i => f i * g i) ≤
      Real.sqrt (mean fun i => f i ^ 2) * Real.sqrt (mean fun i => g i ^ 2) := by
    rw [← Real.sqrt_mul hF]
    exact Real.le_sqrt_of_sq_le hcs
  have h1 := Real.sq_sqrt hF
  have h2 := Real.sq_sqrt hG
  nlinarith

end Mean

/-! ## Lemmas about order statistics and medians -/

section Median
variable {r : ℕ}

/-- Any permutation that sorts the array gives the same sorted array. -/
theorem kth_eq_of_monotone {f : Fin r → ℝ} {σ : Equiv.Perm (Fin r)} (h : Monotone (f ∘ σ))
    (k : Fin r) : kth f k = f (σ k) := by
  have := (Tuple.comp_sort_eq_comp_iff_monotone (f := f) (σ := σ)).2 h
  exact (congrFun this k).symm

theorem kth_monotone (f : Fin r → ℝ) : Monotone (kth f) := Tuple.monotone_sort f

/-- Independent characterisation: the `k`-th smallest entry is at most `a` iff more than `k` entries
are at most `a`. -/
theorem kth_le_iff (f : Fin r → ℝ) (k : Fin r) (a : ℝ) :
    kth f k ≤ a ↔ (k : ℕ) < (univ.filter fun i => f i ≤ a).card := by
  have h := Tuple.lt_card_le_iff_apply_le_of_monotone (f := f ∘ Tuple.sort f) (a := a) (j := k)
    (Tuple.monotone_sort f)
  have hc : (univ.filter fun i => (f ∘ Tuple.sort f) i ≤ a).card
      = (univ.filter fun i => f i ≤ a).card := by
    apply Finset.card_bij (fun i _ => Tuple.sort f i)
    · intro i hi; simpa using hi
    · intro i _ j _ hij; exact (Tuple.sort f).injective hij
    · intro j hj
      exact ⟨(Tuple.sort f).symm j, by simpa using hj, by simp⟩
  rw [hc] at h
  exact h.symm

theorem kth_mem (f : Fin r → ℝ) (k : Fin r) : ∃ i, kth f k = f i := ⟨_, rfl⟩

theorem kth_mono {f g : Fin r → ℝ} (h : ∀ i, f i ≤ g i) (k : Fin r) : kth f k ≤ kth g k := by
  rw [kth_le_iff]
  have := (kth_le_iff g k (kth g k)).1 le_rfl
  refine lt_of_lt_of_le this (Finset.card_le_card ?_)
  intro i hi
  simp only [mem_filter, mem_univ, true_and] at hi ⊢
  exact (h i).trans hi

theorem kth_strictMono {f g : Fin r → ℝ} (h : ∀ i, f i < g i) (k : Fin r) : kth f k < kth g k := by
  have hcard := (kth_le_iff g k (kth g k)).1 le_rfl
  set S := univ.filter fun i => g i ≤ kth g k with hS
  have hne : S.Nonempty := Finset.card_pos.1 (by omega)
  have hlt : S.sup' hne f < kth g k := by
    rw [Finset.sup'_lt_iff]
    intro i hi
    exact lt_of_lt_of_le (h i) (by simpa [hS] using hi)
  refine lt_of_le_of_lt ?_ hlt
  rw [kth_le_iff]
  refine lt_of_lt_of_le hcard (Finset.card_le_card ?_)
  intro i hi
  simp only [mem_filter, mem_univ, true_and]
  exact Finset.le_sup' f hi

theorem kth_perm (f : Fin r → ℝ) (σ : Equiv.Perm (Fin r)) (k : Fin r) :
    kth (f ∘ σ) k = kth f k := by
  have : Monotone (f ∘ (Tuple.sort (f ∘ σ)).trans σ) := Tuple.monotone_sort (f ∘ σ)
  rw [kth_eq_of_monotone this]
  rfl

theorem kth_comp_monotone {g : ℝ → ℝ} (hg : Monotone g) (f : Fin r → ℝ) (k : Fin r) :
    kth (fun i => g (f i)) k = g (kth f k) :=
  kth_eq_of_monotone (f := fun i => g (f i)) (σ := Tuple.sort f)
    (hg.comp (Tuple.monotone_sort f)) k

theorem kth_comp_antitone {g : ℝ → ℝ} (hg : Antitone g) (f : Fin r → ℝ) (k : Fin r) :
    kth (fun i => g (f i)) k = g (kth f k.rev) := by
  have hm : Monotone ((fun i => g (f i)) ∘ (Fin.revPerm.trans (Tuple.sort f))) := by
    intro i j hij
    apply hg
    exact Tuple.monotone_sort f (Fin.rev_le_rev.2 hij)
  rw [kth_eq_of_monotone hm]
  rfl

theorem median_eq (hr : 0 < r) (f : Fin r → ℝ) :
    median f = (kth f ⟨(r - 1) / 2, by omega⟩ + kth f ⟨r / 2, by omega⟩) / 2 := by
  simp [median, hr]

/-- Odd number of repetitions: the median is the middle order statistic. -/
theorem median_odd (m : ℕ) (f : Fin (2 * m + 1) → ℝ) : median f = kth f ⟨m, by omega⟩ := by
  rw [median_eq (by omega)]
  have h1 : (⟨(2 * m + 1 - 1) / 2, by omega⟩ : Fin (2 * m + 1)) = ⟨m, by omega⟩ := by
    ext; simp
  have h2 : (⟨(2 * m + 1) / 2, by omega⟩ : Fin (2 * m + 1)) = ⟨m, by omega⟩ := by
    ext; simp only; omega
  rw [h1, h2]; ring

/-- One repetition: the median is the only entry. -/
theorem median_one (f : Fin 1 → ℝ) : median f = f 0 := by
  rw [median_odd 0, kth]
  congr 1; exact Subsingleton.elim _ _

theorem median_mono {f g : Fin r → ℝ} (h : ∀ i, f i ≤ g i) : median f ≤ median g := by
  unfold median
  split_ifs with hr
  · have h1 := kth_mono h ⟨(r - 1) / 2, by omega⟩
    have h2 := kth_mono h ⟨r / 2, by omega⟩
    linarith
  · exact le_rfl

theorem median_strictMono (hr : 0 < r) {f g : Fin r → ℝ} (h : ∀ i, f i < g i) :
    median f < median g := by
  rw [median_eq hr, median_eq hr]
  have h1 := kth_strictMono h ⟨(r - 1) / 2, by omega⟩
  have h2 := kth_strictMono h ⟨r / 2, by omega⟩
  linarith

theorem median_perm (f : Fin r → ℝ) (σ : Equiv.Perm (Fin r)) : median (f ∘ σ) = median f := by
  unfold median; simp only [kth_perm]

theorem median_const (hr : 0 < r) (c : ℝ) : median (fun _ : Fin r => c) = c := by
  rw [median_eq hr]; simp [kth]

theorem median_nonneg {f : Fin r → ℝ} (h : ∀ i, 0 ≤ f i) : 0 ≤ median f := by
  unfold median
  split_ifs
  · exact div_nonneg (add_nonneg (h _) (h _)) (by norm_num)
  · exact le_rfl

theorem le_median (hr : 0 < r) {f : Fin r → ℝ} {a : ℝ} (h : ∀ i, a ≤ f i) : a ≤ median f := by
  have := median_mono (f := fun _ : Fin r => a) h
  rwa [median_const hr] at this

theorem median_le (hr : 0 < r) {f : Fin r → ℝ} {a : ℝ} (h : ∀ i, f i ≤ a) : median f ≤ a := by
  have := median_mono (g := fun _ : Fin r => a) h
  rwa [median_const hr] at this

theorem median_add_const (hr : 0 < r) (f : Fin r → ℝ) (c : ℝ) :
    median (fun i => f i + c) = median f + c := by
  have hg : Monotone (fun x : ℝ => x + c) := fun x y h => by simpa using h
  rw [median_eq hr, median_eq hr, kth_comp_monotone hg, kth_comp_monotone hg]; ring

theorem median_mul_nonneg {c : ℝ} (hc : 0 ≤ c) (f : Fin r → ℝ) :
    median (fun i => c * f i) = c * median f := by
  have hg : Monotone (fun x : ℝ => c * x) := fun x y h => mul_le_mul_of_nonneg_left h hc
  unfold median
  split_ifs with hr
  · rw [kth_comp_monotone hg, kth_comp_monotone hg]; ring
  · simp

theorem median_neg (f : Fin r → ℝ) : median (fun i => - f i) = - median f := by
  have hg : Antitone (fun x : ℝ => -x) := fun x y h => neg_le_neg h
  unfold median
  split_ifs with hr
  · rw [kth_comp_antitone hg, kth_comp_antitone hg]
    have e1 : (⟨(r - 1) / 2, by omega⟩ : Fin r).rev = ⟨r / 2, by omega⟩ := by
      ext; simp only [Fin.val_rev]; omega
    have e2 : (⟨r / 2, by omega⟩ : Fin r).rev = ⟨(r - 1) / 2, by omega⟩ := by
      ext; simp only [Fin.val_rev]; omega
    rw [e1, e2]; ring
  · simp

/-- The median commutes with multiplication by any scalar, negative ones included. -/
theorem median_mul (c : ℝ) (f : Fin r → ℝ) : median (fun i => c * f i) = c * median f := by
  rcases le_total 0 c with hc | hc
  · exact median_mul_nonneg hc f
  · have h := median_mul_nonneg (neg_nonneg.2 hc) f
    have h2 := median_neg (fun i => -c * f i)
    simp only [neg_mul, neg_neg] at h h2
    rw [h2, h]; ring

/-- With an odd number of repetitions the median commutes with every monotone function. -/
theorem median_comp_monotone_odd (m : ℕ) {g : ℝ → ℝ} (hg : Monotone g)
    (f : Fin (2 * m + 1) → ℝ) : median (fun i => g (f i)) = g (median f) := by
  rw [median_odd, median_odd, kth_comp_monotone hg]

theorem median_comp_antitone_odd (m : ℕ) {g : ℝ → ℝ} (hg : Antitone g)
    (f : Fin (2 * m + 1) → ℝ) : median (fun i => g (f i)) = g (median f) := by
  rw [median_odd, median_odd, kth_comp_antitone hg]
  congr 2; ext; simp only [Fin.val_rev]; omega

/-- The median is never above an entry bound that holds for more than half of the entries. -/
theorem median_le_of_card {f : Fin r → ℝ} {a : ℝ}
    (h : r < 2 * (univ.filter fun i => f i ≤ a).card) : median f ≤ a := by
  unfold median
  split_ifs with hr
  · have h1 : kth f ⟨(r - 1) / 2, by omega⟩ ≤ a := (kth_le_iff _ _ _).2 (by simp only; omega)
    have h2 : kth f ⟨r / 2, by omega⟩ ≤ a := (kth_le_iff _ _ _).2 (by simp only; omega)
    linarith
  · exfalso
    have : (univ.filter fun i => f i ≤ a).card ≤ r := by
      simpa using (Finset.card_le_univ (univ.filter fun i => f i ≤ a))
    omega

theorem le_median_of_card {f : Fin r → ℝ} {a : ℝ}
    (h : r < 2 * (univ.filter fun i => a ≤ f i).card) : a ≤ median f := by
  have h' : r < 2 * (univ.filter fun i => - f i ≤ - a).card := by simpa using h
  have := median_le_of_card h'
  rw [median_neg] at this
  linarith

/-- With an odd number of repetitions, "median at most `a`" is exactly "a majority is at most `a`". -/
theorem median_le_iff_odd (m : ℕ) (f : Fin (2 * m + 1) → ℝ) (a : ℝ) :
    median f ≤ a ↔ m < (univ.filter fun i => f i ≤ a).card := by
  rw [median_odd, kth_le_iff]

/-- The median lies between two entries of the array. -/
theorem median_between (hr : 0 < r) (f : Fin r → ℝ) :
    (∃ i, f i ≤ median f) ∧ ∃ j, median f ≤ f j := by
  rw [median_eq hr]
  have hle : kth f ⟨(r - 1) / 2, by omega⟩ ≤ kth f ⟨r / 2, by omega⟩ :=
    kth_monotone f (by simp only [Fin.mk_le_mk]; omega)
  refine ⟨⟨Tuple.sort f ⟨(r - 1) / 2, by omega⟩, ?_⟩, ⟨Tuple.sort f ⟨r / 2, by omega⟩, ?_⟩⟩
  · change kth f _ ≤ _; linarith
  · change _ ≤ kth f _; linarith

/-- The median is Lipschitz for the maximum distance. -/
theorem abs_median_sub_le (hr : 0 < r) {f g : Fin r → ℝ} {d : ℝ} (h : ∀ i, |f i - g i| ≤ d) :
    |median f - median g| ≤ d := by
  have h1 : median f ≤ median g + d := by
    rw [← median_add_const hr]
    exact median_mono fun i => by have := (abs_le.1 (h i)).2; linarith
  have h2 : median g ≤ median f + d := by
    rw [← median_add_const hr]
    exact median_mono fun i => by have := (abs_le.1 (h i)).1; linarith
  rw [abs_le]; constructor <;> linarith

end Median

/-! ## Quantiles -/

section Quantile
variable {B : ℕ}

theorem quantile_mono {f g : Fin B → ℝ} (h : ∀ i, f i ≤ g i) {q : ℝ} (h0 : 0 ≤ q) (h1 : q ≤ 1) :
    quantile f q ≤ quantile g q := by
  unfold quantile
  split_ifs with hB
  · simp only
    have hB1 : (1 : ℝ) ≤ B := by exact_mod_cast hB
    have hpos : 0 ≤ q * ((B : ℝ) - 1) := mul_nonneg h0 (by linarith)
    have hfl : ⌊q * ((B : ℝ) - 1)⌋₊ ≤ B - 1 := by
      have : q * ((B : ℝ) - 1) ≤ ((B - 1 : ℕ) : ℝ) := by
        rw [Nat.cast_sub hB]; push_cast; nlinarith
      exact (Nat.floor_le_floor this).trans (by rw [Nat.floor_natCast])
    have hmin : min ⌊q * ((B : ℝ) - 1)⌋₊ (B - 1) = ⌊q * ((B : ℝ) - 1)⌋₊ := min_eq_left hfl
    have ha : (0 : ℝ) ≤ q * ((B : ℝ) - 1) - (min ⌊q * ((B : ℝ) - 1)⌋₊ (B - 1) : ℕ) := by
      rw [hmin]; linarith [Nat.floor_le hpos]
    have hb : q * ((B : ℝ) - 1) - (min ⌊q * ((B : ℝ) - 1)⌋₊ (B - 1) : ℕ) ≤ 1 := by
      rw [hmin]; linarith [Nat.lt_floor_add_one (q * ((B : ℝ) - 1))]
    have k1 := kth_mono h ⟨min ⌊q * ((B : ℝ) - 1)⌋₊ (B - 1), by omega⟩
    have k2 := kth_mono h ⟨min (min ⌊q * ((B : ℝ) - 1)⌋₊ (B - 1) + 1) (B - 1), by omega⟩
    set a := q * ((B : ℝ) - 1) - (min ⌊q * ((B : ℝ) - 1)⌋₊ (B - 1) : ℕ)
    nlinarith
  · exact le_rfl

theorem quantile_const (hB : 0 < B) (c q : ℝ) : quantile (fun _ : Fin B => c) q = c := by
  unfold quantile; simp [hB, kth]

theorem quantile_nonneg {f : Fin B → ℝ} (h : ∀ i, 0 ≤ f i) {q : ℝ} (h0 : 0 ≤ q) (h1 : q ≤ 1) :
    0 ≤ quantile f q := by
  rcases Nat.eq_zero_or_pos B with rfl | hB
  · simp [quantile]
  · have := quantile_mono h h0 h1
    rwa [quantile_const hB] at this

/-- Quantiles are nondecreasing in the level. -/
theorem quantile_mono_level (f : Fin B → ℝ) {q q' : ℝ} (h0 : 0 ≤ q) (hq : q ≤ q') (h1 : q' ≤ 1) :
    quantile f q ≤ quantile f q' := by
  unfold quantile
  split_ifs with hB
  · simp only
    have hB1 : (1 : ℝ) ≤ B := by exact_mod_cast hB
    set p := q * ((B : ℝ) - 1) with hp
    set p' := q' * ((B : ℝ) - 1) with hp'
    have hpp : p ≤ p' := mul_le_mul_of_nonneg_right hq (by linarith)
    have hpos : 0 ≤ p := mul_nonneg h0 (by linarith)
    have hpos' : 0 ≤ p' := hpos.trans hpp
    have hle' : p' ≤ ((B - 1 : ℕ) : ℝ) := by
      rw [Nat.cast_sub hB]; push_cast; rw [hp']; nlinarith
    have hfl' : ⌊p'⌋₊ ≤ B - 1 := (Nat.floor_le_floor hle').trans (by rw [Nat.floor_natCast])
    have hfl : ⌊p⌋₊ ≤ ⌊p'⌋₊ := Nat.floor_le_floor hpp
    have e1 : min ⌊p⌋₊ (B - 1) = ⌊p⌋₊ := min_eq_left (hfl.trans hfl')
    have e2 : min ⌊p'⌋₊ (B - 1) = ⌊p'⌋₊ := min_eq_left hfl'
    have c1 : (min ⌊p⌋₊ (B - 1) : ℕ) ≤ p := by rw [e1]; exact Nat.floor_le hpos
    have c2 : (min ⌊p'⌋₊ (B - 1) : ℕ) ≤ p' := by rw [e2]; exact Nat.floor_le hpos'
    have d1 : p < (min ⌊p⌋₊ (B - 1) : ℕ) + 1 := by rw [e1]; exact Nat.lt_floor_add_one p
    rcases Nat.lt_or_ge ⌊p⌋₊ ⌊p'⌋₊ with hlt | hge
    · -- different cells: go through the order statistic at the right end of the first cell
      have m1 : kth f ⟨min ⌊p⌋₊ (B - 1), by omega⟩
          ≤ kth f ⟨min (min ⌊p⌋₊ (B - 1) + 1) (B - 1), by omega⟩ :=
        kth_monotone f (by simp only [Fin.mk_le_mk]; omega)
      have m2 : kth f ⟨min (min ⌊p⌋₊ (B - 1) + 1) (B - 1), by omega⟩
          ≤ kth f ⟨min ⌊p'⌋₊ (B - 1), by omega⟩ :=
        kth_monotone f (by simp only [Fin.mk_le_mk]; omega)
      have m3 : kth f ⟨min ⌊p'⌋₊ (B - 1), by omega⟩
          ≤ kth f ⟨min (min ⌊p'⌋₊ (B - 1) + 1) (B - 1), by omega⟩ :=
        kth_monotone f (by simp only [Fin.mk_le_mk]; omega)
      set a := p - (min ⌊p⌋₊ (B - 1) : ℕ)
      set b := p' - (min ⌊p'⌋₊ (B - 1) : ℕ)
      have ha : a ≤ 1 := by linarith
      have hb : 0 ≤ b := by linarith
      nlinarith
    · have heq : ⌊p⌋₊ = ⌊p'⌋₊ := le_antisymm hfl hge
      have q1 : kth f ⟨min ⌊p⌋₊ (B - 1), by omega⟩ = kth f ⟨min ⌊p'⌋₊ (B - 1), by omega⟩ := by
        congr 2; rw [heq]
      have q2 : kth f ⟨min (min ⌊p⌋₊ (B - 1) + 1) (B - 1), by omega⟩
          = kth f ⟨min (min ⌊p'⌋₊ (B - 1) + 1) (B - 1), by omega⟩ := by
        congr 2; rw [heq]
      have q3 : ((min ⌊p⌋₊ (B - 1) : ℕ) : ℝ) = (min ⌊p'⌋₊ (B - 1) : ℕ) := by rw [heq]
      rw [q1, q2, q3]
      have m3 : kth f ⟨min ⌊p'⌋₊ (B - 1), by omega⟩
          ≤ kth f ⟨min (min ⌊p'⌋₊ (B - 1) + 1) (B - 1), by omega⟩ :=
        kth_monotone f (by simp only [Fin.mk_le_mk]; omega)
      nlinarith
  · exact le_rfl

/-- One draw: every quantile is that draw. -/
theorem quantile_one (f : Fin 1 → ℝ) (q : ℝ) : quantile f q = f 0 := by
  have : f = fun _ => f 0 := by funext i; congr 1; exact Subsingleton.elim _ _
  rw [this, quantile_const (by norm_num)]

end Quantile

/-! ## Aggregation -/

section Agg
variable {r : ℕ}

theorem aggSe_nonneg (θ s v : Fin r → ℝ) : 0 ≤ aggSe θ s v := Real.sqrt_nonneg _

theorem aggSe_sq (θ s v : Fin r → ℝ) (hv : ∀ k, 0 ≤ v k) :
    aggSe θ s v ^ 2 = median fun k => s k ^ 2 + (θ k - median θ) ^ 2 / v k :=
  Real.sq_sqrt (median_nonneg fun k => add_nonneg (sq_nonneg _) (div_nonneg (sq_nonneg _) (hv k)))

theorem aggTheta_mul (c : ℝ) (θ : Fin r → ℝ) : aggTheta (fun k => c * θ k) = c * aggTheta θ :=
  median_mul c θ

theorem aggSe_mul (c : ℝ) (θ s v : Fin r → ℝ) :
    aggSe (fun k => c * θ k) (fun k => c * s k) v = |c| * aggSe θ s v := by
  unfold aggSe
  rw [← Real.sqrt_sq_eq_abs, ← Real.sqrt_mul (sq_nonneg c), ← median_mul]
  simp only [median_mul c θ]
  congr 2; funext k; ring

theorem aggSe_perm (θ s v : Fin r → ℝ) (σ : Equiv.Perm (Fin r)) :
    aggSe (θ ∘ σ) (s ∘ σ) (v ∘ σ) = aggSe θ s v := by
  unfold aggSe
  rw [median_perm θ σ]
  congr 1
  exact median_perm (fun k => s k ^ 2 + (θ k - median θ) ^ 2 / v k) σ

theorem aggSe_shift (hr : 0 < r) (θ s v : Fin r → ℝ) (c : ℝ) :
    aggSe (fun k => θ k + c) s v = aggSe θ s v := by
  unfold aggSe
  rw [median_add_const hr]
  congr 2; funext k; congr 2; ring

end Agg

end DML
