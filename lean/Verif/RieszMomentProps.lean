import Verif.PublishedScoreProps

/-!
# C74: sensitivity elements in terms of data and predictions

The specification: `Reported` (what is reported for a treatment and a repetition), `Calibrated` (predictions that are the
exact averages within groups of observations).
-/

namespace DML

open Finset

variable {n : ℕ} {P X : Type}

/-! ## Specification -/

/-- The sensitivity elements stored for treatment number `j` in repetition `k`. -/
def Reported (t : LinState n P) (j k : ℕ) (e : SensElems n) : Prop := (t.sens.bind fun S => S j k) = some e

/-- Within each group of observations with the same `x` the predictions `m` are constant and have the same sum as `a`: `m` is
the average of `a` in the group. -/
structure Calibrated [DecidableEq X] (x : Fin n → X) (a m : Fin n → ℝ) : Prop where
  const : ∀ i j, x i = x j → m i = m j
  sums : ∀ g, (∑ i with x i = g, a i) = ∑ i with x i = g, m i

/-! ## Averages within groups -/

section
variable [DecidableEq X] {x : Fin n → X} {a m f : Fin n → ℝ}

theorem Calibrated.mean (h : Calibrated x a m) (hf : ∀ i j, x i = x j → f i = f j) :
    DML.mean (fun i => f i * a i) = DML.mean fun i => f i * m i := by
  have key : (∑ i, f i * a i) = ∑ i, f i * m i := by
    rw [← Finset.sum_fiberwise_of_maps_to (s := univ) (t := univ.image x) (g := x) fun i _ => mem_image_of_mem x (mem_univ i),
      ← Finset.sum_fiberwise_of_maps_to (s := univ) (t := univ.image x) (g := x) fun i _ => mem_image_of_mem x (mem_univ i)]
    refine Finset.sum_congr rfl fun g hg => ?_
    obtain ⟨i, -, rfl⟩ := mem_image.1 hg
    have h1 : ∀ b : Fin n → ℝ, (∑ j with x j = x i, f j * b j) = f i * ∑ j with x j = x i, b j := by
      intro b
      rw [Finset.mul_sum]
      exact Finset.sum_congr rfl fun j hj => by rw [hf j i (mem_filter.1 hj).2]
    rw [h1, h1, h.sums]
  unfold DML.mean
  rw [key]

theorem Calibrated.mean_self (h : Calibrated x a m) : DML.mean a = DML.mean m := by
  have := h.mean (f := fun _ => 1) fun _ _ _ => rfl
  simpa using this

theorem Calibrated.compl (h : Calibrated x a m) : Calibrated x (fun i => 1 - a i) fun i => 1 - m i := by
  refine ⟨fun i j hij => by rw [h.const i j hij], fun g => ?_⟩
  rw [Finset.sum_sub_distrib, Finset.sum_sub_distrib, h.sums]

theorem Calibrated.scale (h : Calibrated x a m) (hf : ∀ i j, x i = x j → f i = f j) :
    Calibrated x (fun i => f i * a i) fun i => f i * m i := by
  refine ⟨fun i j hij => by rw [h.const i j hij, hf i j hij], fun g => ?_⟩
  by_cases hg : ∃ i, x i = g
  · obtain ⟨i, rfl⟩ := hg
    have h1 : ∀ b : Fin n → ℝ, (∑ j with x j = x i, f j * b j) = f i * ∑ j with x j = x i, b j := by
      intro b
      rw [Finset.mul_sum]
      exact Finset.sum_congr rfl fun j hj => by rw [hf j i (mem_filter.1 hj).2]
    rw [h1, h1, h.sums]
  · have : (univ.filter fun i => x i = g) = ∅ := filter_eq_empty_iff.2 fun i _ hi => hg ⟨i, hi⟩
    rw [this]
    simp

/-- Inverse propensities average to one. -/
theorem Calibrated.ipw_mean (h : Calibrated x a m) (hm : ∀ i, m i ≠ 0) (hn : 0 < n) : (DML.mean fun i => a i / m i) = 1 := by
  have h1 := h.mean (f := fun i => 1 / m i) fun i j hij => by rw [h.const i j hij]
  have h2 : (fun i => a i / m i) = fun i => 1 / m i * a i := by funext i; ring
  rw [h2, h1, show (fun i => 1 / m i * m i) = fun _ => (1 : ℝ) from funext fun i => by rw [one_div, inv_mul_cancel₀ (hm i)],
    mean_const hn]

theorem Calibrated.ipw_eq (h : Calibrated x a m) (hm : ∀ i, m i ≠ 0) (nrm : Bool) (i : Fin n) : ipw nrm a m i = a i / m i := by
  unfold ipw
  cases nrm
  · simp
  · rw [if_pos rfl, h.ipw_mean hm i.pos, div_one]

theorem Calibrated.adjust_eq (h : Calibrated x a m) (hm : ∀ i, 0 < m i ∧ m i < 1) (nrm : Bool) : adjust nrm m a = m := by
  unfold adjust
  cases nrm
  · rfl
  · rw [if_pos rfl]
    funext i
    unfold normalizeIpw
    rw [h.ipw_mean (fun i => (hm i).1.ne') i.pos, h.compl.ipw_mean (fun i => by linarith [(hm i).2]) i.pos]
    ring

end

theorem moment_of {A r : Fin n → ℝ} (h : mean A = mean fun i => r i ^ 2) :
    (mean fun i => 2 * A i - r i ^ 2) = mean fun i => r i ^ 2 := by
  rw [mean_sub, mean_mul_left, h]
  ring

/-! ## The second moment of the representer -/

theorem plr_moment (res d m : Fin n → ℝ) (h : mean (fun i => (d i - m i) ^ 2) ≠ 0) :
    (plrSens res d m).nu2 = mean fun i => (plrSens res d m).rr i ^ 2 := by
  show 1 / mean (fun i => (d i - m i) ^ 2) = mean fun i => ((d i - m i) * (1 / mean fun i => (d i - m i) ^ 2)) ^ 2
  have : (fun i => ((d i - m i) * (1 / mean fun i => (d i - m i) ^ 2)) ^ 2) =
      fun i => (d i - m i) ^ 2 * (1 / mean fun i => (d i - m i) ^ 2) ^ 2 := by funext i; ring
  rw [this, mean_mul_right]
  field_simp

section
variable [DecidableEq X] {x : Fin n → X}

theorem irm_moment {y d g0 g1 m w wb : Fin n → ℝ} (hd : Binary d) (hm : ∀ i, 0 < m i ∧ m i < 1) (h : Calibrated x d m)
    (hw : Calibrated x w wb) :
    (irmSens y d g0 g1 m w wb).nu2 = mean fun i => (irmSens y d g0 g1 m w wb).rr i ^ 2 := by
  refine moment_of ?_
  have e1 : (fun i => w i * (wb i * (1 / m i + 1 / (1 - m i)))) = fun i => wb i * (1 / m i + 1 / (1 - m i)) * w i := by
    funext i; ring
  have e2 : (fun i => (wb i * (d i / m i - (1 - d i) / (1 - m i))) ^ 2) =
      fun i => (wb i / m i) ^ 2 * d i + (wb i / (1 - m i)) ^ 2 * (1 - d i) := by
    funext i
    rcases hd i with h0 | h0 <;> rw [h0] <;> ring
  rw [e1, e2, mean_add, hw.mean fun i j hij => by rw [h.const i j hij, hw.const i j hij],
    h.mean fun i j hij => by rw [h.const i j hij, hw.const i j hij],
    h.compl.mean fun i j hij => by rw [h.const i j hij, hw.const i j hij], ← mean_add]
  congr 1
  funext i
  have h1 : m i ≠ 0 := (hm i).1.ne'
  have h2 : 1 - m i ≠ 0 := by linarith [(hm i).2]
  field_simp

theorem apo_moment {y d g0 g1 m w wb : Fin n → ℝ} (hd : Binary d) (hm : ∀ i, m i ≠ 0) (h : Calibrated x d m)
    (hw : Calibrated x w wb) :
    (apoSens y d g0 g1 m w wb).nu2 = mean fun i => (apoSens y d g0 g1 m w wb).rr i ^ 2 := by
  refine moment_of ?_
  have e1 : (fun i => w i * (wb i * (1 / m i))) = fun i => wb i * (1 / m i) * w i := by funext i; ring
  have e2 : (fun i => (wb i * (d i / m i)) ^ 2) = fun i => (wb i / m i) ^ 2 * d i := by
    funext i
    rcases hd i with h0 | h0 <;> rw [h0] <;> ring
  rw [e1, e2, hw.mean fun i j hij => by rw [h.const i j hij, hw.const i j hij],
    h.mean fun i j hij => by rw [h.const i j hij, hw.const i j hij]]
  congr 1
  funext i
  have h1 := hm i
  field_simp

theorem did_moment_exp (norm : Bool) {y d g0 g1 m : Fin n → ℝ} (hd : Binary d) (h0 : mean d ≠ 0) (h1 : mean d ≠ 1) :
    (didSens .experimental norm y d g0 g1 m).nu2 = mean fun i => (didSens .experimental norm y d g0 g1 m).rr i ^ 2 := by
  have hn : 0 < n := by
    rcases Nat.eq_zero_or_pos n with rfl | hn
    · exact absurd (by simp [mean]) h0
    · exact hn
  refine moment_of ?_
  have h1' : 1 - mean d ≠ 0 := sub_ne_zero.2 h1.symm
  have e2 : (fun i => didRr .experimental norm d m i ^ 2) =
      fun i => d i * (1 / mean d) ^ 2 + (1 - d i) * (1 / (1 - mean d)) ^ 2 := by
    funext i
    unfold didRr
    rcases hd i with h0 | h0 <;> rw [h0] <;> simp
  have e3 : (didMAlpha .experimental norm d m) = fun _ => 1 / mean d + 1 / (1 - mean d) := rfl
  rw [e2, e3, mean_const hn, mean_add, mean_mul_right, mean_mul_right, mean_sub, mean_const hn]
  field_simp

theorem odds_mean {d m : Fin n → ℝ} (hm : ∀ i, m i < 1) (h : Calibrated x d m) :
    (mean fun j => (1 - d j) * (m j / (1 - m j))) = mean d := by
  have e : (fun j => (1 - d j) * (m j / (1 - m j))) = fun j => m j / (1 - m j) * (1 - d j) := by funext j; ring
  rw [e, h.compl.mean fun i j hij => by rw [h.const i j hij], h.mean_self]
  congr 1
  funext i
  have h2 : 1 - m i ≠ 0 := by linarith [hm i]
  field_simp

theorem odds_sq_mean {d m : Fin n → ℝ} (hm : ∀ i, m i < 1) (h : Calibrated x d m) :
    (mean fun j => (1 - d j) * (m j / (1 - m j)) ^ 2) = mean fun j => d j * (m j / (1 - m j)) := by
  have e : (fun j => (1 - d j) * (m j / (1 - m j)) ^ 2) = fun j => (m j / (1 - m j)) ^ 2 * (1 - d j) := by funext j; ring
  have e' : (fun j => d j * (m j / (1 - m j))) = fun j => m j / (1 - m j) * d j := by funext j; ring
  rw [e, e', h.compl.mean fun i j hij => by rw [h.const i j hij], h.mean fun i j hij => by rw [h.const i j hij]]
  congr 1
  funext i
  have h2 : 1 - m i ≠ 0 := by linarith [hm i]
  field_simp

theorem did_moment_obs (norm : Bool) {y d g0 g1 m : Fin n → ℝ} (hd : Binary d) (hm : ∀ i, m i < 1)
    (h : Calibrated x d m) :
    (didSens .observational norm y d g0 g1 m).nu2 = mean fun i => (didSens .observational norm y d g0 g1 m).rr i ^ 2 := by
  refine moment_of ?_
  have hq := odds_mean hm h
  have e2 : (fun i => didRr .observational norm d m i ^ 2) =
      fun i => d i * (1 / mean d) ^ 2 + (1 - d i) * (m i / (1 - m i)) ^ 2 * (1 / mean d) ^ 2 := by
    funext i
    unfold didRr
    cases norm
    · dsimp only
      rcases hd i with h0 | h0 <;> rw [h0] <;> ring
    · dsimp only
      rw [hq]
      rcases hd i with h0 | h0 <;> rw [h0] <;> ring
  have e3 : didMAlpha .observational norm d m =
      fun i => d i * (1 / mean d) ^ 2 + d i * (m i / (1 - m i)) * (1 / mean d) ^ 2 := by
    funext i
    unfold didMAlpha
    cases norm
    · dsimp only
      ring
    · dsimp only
      rw [hq]
      ring
  rw [e2, e3, mean_add, mean_add, mean_mul_right, mean_mul_right, mean_mul_right, odds_sq_mean hm h]

/-! ### Repeated cross-sections -/

theorem time_mean {d t f : Fin n → ℝ} (h : Calibrated (fun i => (x i, d i)) t fun _ => mean t)
    (hf : ∀ i j, x i = x j → d i = d j → f i = f j) :
    (mean fun i => f i * t i) = mean f * mean t ∧ (mean fun i => f i * (1 - t i)) = mean f * (1 - mean t) := by
  have hf' : ∀ i j, (x i, d i) = (x j, d j) → f i = f j := fun i j hij => hf i j (Prod.mk.inj hij).1 (Prod.mk.inj hij).2
  exact ⟨by rw [h.mean hf', mean_mul_right], by rw [h.compl.mean hf', mean_mul_right]⟩

end

theorem mean_cells (hn : 0 < n) {d t : Fin n → ℝ} (hd : (mean fun i => d i * t i) = mean d * mean t) :
    mean (cells d t).d1t1 = mean d * mean t ∧ mean (cells d t).d1t0 = mean d * (1 - mean t) ∧
    mean (cells d t).d0t1 = (1 - mean d) * mean t ∧ mean (cells d t).d0t0 = (1 - mean d) * (1 - mean t) := by
  have h1 : mean (cells d t).d1t0 = mean d - mean fun i => d i * t i := by
    rw [← mean_sub]
    congr 1
    funext i
    show d i * (1 - t i) = _
    ring
  have h2 : mean (cells d t).d0t1 = mean t - mean fun i => d i * t i := by
    rw [← mean_sub]
    congr 1
    funext i
    show (1 - d i) * t i = _
    ring
  have h3 : mean (cells d t).d0t0 = 1 - mean d - mean t + mean fun i => d i * t i := by
    rw [← mean_const hn 1, ← mean_sub, ← mean_sub, ← mean_add]
    congr 1
    funext i
    show (1 - d i) * (1 - t i) = _
    ring
  refine ⟨hd, ?_, ?_, ?_⟩
  · rw [h1, hd]; ring
  · rw [h2, hd]; ring
  · rw [h3, hd]; ring

theorem cs_moment_exp_norm {y d t m : Fin n → ℝ} {g : Cells n} (hd : Binary d) (ht : Binary t)
    (h11 : mean (cells d t).d1t1 ≠ 0) (h10 : mean (cells d t).d1t0 ≠ 0) (h01 : mean (cells d t).d0t1 ≠ 0)
    (h00 : mean (cells d t).d0t0 ≠ 0) :
    (csSens .experimental true y d t g m).nu2 = mean fun i => (csSens .experimental true y d t g m).rr i ^ 2 := by
  have hn : 0 < n := by
    rcases Nat.eq_zero_or_pos n with rfl | hn
    · exact absurd (by simp [mean]) h11
    · exact hn
  refine moment_of ?_
  have e2 : (fun i => csRr .experimental true d t m i ^ 2) =
      fun i => (cells d t).d1t1 i * (1 / mean (cells d t).d1t1) ^ 2 + (cells d t).d1t0 i * (1 / mean (cells d t).d1t0) ^ 2 +
        (cells d t).d0t1 i * (1 / mean (cells d t).d0t1) ^ 2 + (cells d t).d0t0 i * (1 / mean (cells d t).d0t0) ^ 2 := by
    funext i
    unfold csRr
    dsimp only
    generalize mean (cells d t).d1t1 = A
    generalize mean (cells d t).d1t0 = B
    generalize mean (cells d t).d0t1 = C
    generalize mean (cells d t).d0t0 = E
    dsimp only [cells]
    rcases hd i with h0 | h0 <;> rcases ht i with h1 | h1 <;> rw [h0, h1] <;> ring
  have e3 : csMAlpha .experimental true d t m = fun _ => 1 / mean (cells d t).d1t1 + 1 / mean (cells d t).d1t0 +
      1 / mean (cells d t).d0t1 + 1 / mean (cells d t).d0t0 := rfl
  rw [e2, e3, mean_const hn, mean_add, mean_add, mean_add, mean_mul_right, mean_mul_right, mean_mul_right, mean_mul_right]
  field_simp

theorem cs_moment_exp {y d t m : Fin n → ℝ} {g : Cells n} (hd : Binary d) (ht : Binary t) (h0 : mean d ≠ 0) (h1 : mean d ≠ 1)
    (h2 : mean t ≠ 0) (h3 : mean t ≠ 1) (hdt : (mean fun i => d i * t i) = mean d * mean t) :
    (csSens .experimental false y d t g m).nu2 = mean fun i => (csSens .experimental false y d t g m).rr i ^ 2 := by
  have hn : 0 < n := by
    rcases Nat.eq_zero_or_pos n with rfl | hn
    · exact absurd (by simp [mean]) h0
    · exact hn
  obtain ⟨k11, k10, k01, k00⟩ := mean_cells hn hdt
  refine moment_of ?_
  have e2 : (fun i => csRr .experimental false d t m i ^ 2) =
      fun i => (cells d t).d1t1 i * (1 / (mean d * mean t)) ^ 2 + (cells d t).d1t0 i * (1 / (mean d * (1 - mean t))) ^ 2 +
        (cells d t).d0t1 i * (1 / ((1 - mean d) * mean t)) ^ 2 + (cells d t).d0t0 i * (1 / ((1 - mean d) * (1 - mean t))) ^ 2 := by
    funext i
    unfold csRr
    dsimp only [cells]
    rcases hd i with h0 | h0 <;> rcases ht i with h1 | h1 <;> rw [h0, h1] <;> ring
  have e3 : csMAlpha .experimental false d t m = fun _ => 1 / (mean d * mean t) + 1 / (mean d * (1 - mean t)) +
      1 / ((1 - mean d) * mean t) + 1 / ((1 - mean d) * (1 - mean t)) := rfl
  have h1' : 1 - mean d ≠ 0 := sub_ne_zero.2 h1.symm
  have h3' : 1 - mean t ≠ 0 := sub_ne_zero.2 h3.symm
  rw [e2, e3, mean_const hn, mean_add, mean_add, mean_add, mean_mul_right, mean_mul_right, mean_mul_right, mean_mul_right,
    k11, k10, k01, k00]
  field_simp

theorem cs_moment_obs [DecidableEq X] {x : Fin n → X} (norm : Bool) {y d t m : Fin n → ℝ} {g : Cells n} (hd : Binary d)
    (ht : Binary t) (h0 : mean d ≠ 0) (h2 : mean t ≠ 0) (h3 : mean t ≠ 1) (hm : ∀ i, m i < 1) (h : Calibrated x d m)
    (hT : Calibrated (fun i => (x i, d i)) t fun _ => mean t) :
    (csSens .observational norm y d t g m).nu2 = mean fun i => (csSens .observational norm y d t g m).rr i ^ 2 := by
  have h3' : 1 - mean t ≠ 0 := sub_ne_zero.2 h3.symm
  have hn : 0 < n := by
    rcases Nat.eq_zero_or_pos n with rfl | hn
    · exact absurd (by simp [mean]) h0
    · exact hn
  have hdt : (mean fun i => d i * t i) = mean d * mean t := (time_mean hT fun _ _ _ h => h).1
  obtain ⟨k11, k10, k01, k00⟩ := mean_cells hn hdt
  have hq := odds_mean hm h
  obtain ⟨q1, q0⟩ := time_mean (f := fun j => (1 - d j) * (m j / (1 - m j))) hT fun i j hx hdd => by rw [hdd, h.const i j hx]
  have q1' : (mean fun j => (cells d t).d0t1 j * (m j / (1 - m j))) = mean d * mean t := by
    rw [← hq, ← q1]
    congr 1
    funext j
    show (1 - d j) * t j * _ = _
    ring
  have q0' : (mean fun j => (cells d t).d0t0 j * (m j / (1 - m j))) = mean d * (1 - mean t) := by
    rw [← hq, ← q0]
    congr 1
    funext j
    show (1 - d j) * (1 - t j) * _ = _
    ring
  refine moment_of ?_
  have e2 : (fun i => csRr .observational norm d t m i ^ 2) =
      fun i => (d i + (1 - d i) * (m i / (1 - m i)) ^ 2) * t i * (1 / (mean d * mean t)) ^ 2 +
        (d i + (1 - d i) * (m i / (1 - m i)) ^ 2) * (1 - t i) * (1 / (mean d * (1 - mean t))) ^ 2 := by
    funext i
    unfold csRr
    cases norm
    · dsimp only
      rcases hd i with h0 | h0 <;> rcases ht i with h1 | h1 <;> rw [h0, h1] <;> ring
    · dsimp only
      rw [k11, k10, q1', q0']
      dsimp only [cells]
      rcases hd i with h0 | h0 <;> rcases ht i with h1 | h1 <;> rw [h0, h1] <;> ring
  have e3 : csMAlpha .observational norm d t m =
      fun i => (d i + d i * (m i / (1 - m i))) * (1 / mean d * (1 / (mean d * mean t) + 1 / (mean d * (1 - mean t)))) := by
    funext i
    unfold csMAlpha
    cases norm
    · dsimp only
      field_simp
    · dsimp only
      rw [k11, k10, q1', q0']
      ring
  obtain ⟨r1, r0⟩ := time_mean (f := fun i => d i + (1 - d i) * (m i / (1 - m i)) ^ 2) hT
    fun i j hx hdd => by rw [hdd, h.const i j hx]
  rw [e2, e3, mean_add, mean_mul_right, mean_mul_right, mean_mul_right, r1, r0, mean_add, mean_add, odds_sq_mean hm h]
  field_simp

/-! ## From cells to fits -/

theorem FitAt.sens {F : Frame n} {sp : LinSpec n P} {s t : LinState n P} {a : FitArgs} {j k : ℕ} {D : DataState n}
    {S : List (Fold n)} (hsi : sp.sensImpl = true) (h : FitAt F sp s a t j k D S) :
    ∃ c o e, sp.est c = .ok o ∧ c.data = D ∧ c.smpls = S ∧ c.rep = k ∧ (t.heap t.arr).coef j k = some o.fit.coef ∧
      (∀ l (r : CvRes n P (List Cell)), lookupKey l o.preds = some r.preds → t.predVec j k l = r.vec) ∧
      Reported t j k e ∧ e.sigma2 = o.sens.sigma2 ∧ e.rr = o.sens.rr ∧
      (o.sens.nu2 = mean (fun i => o.sens.rr i ^ 2) → e.nu2 = mean fun i => e.rr i ^ 2) := by
  obtain ⟨hf, rfl, hp, hk, ⟨tv, htv, rfl⟩, L, hL, hS⟩ := h
  obtain ⟨p, m, fw, hc, h2, -, h4⟩ := fit_ok hf
  obtain ⟨hp', hm⟩ := checkFit_ok hc
  rw [hp] at hp'; cases hp'
  obtain ⟨hj, _⟩ := List.getElem?_eq_some_iff.1 htv
  obtain ⟨o, ho, hst, _⟩ := fitLoop_stored _ _ h2 (mem_cellOrder.2 ⟨hk, hj⟩)
  obtain ⟨c, H, -, hce⟩ := (ho.congr (initFit_frame sp s true m).settings.symm).from
  have hT := ((fitLoop_tables (F := F) (ext := a.ext) (p := true) (m := m) (cellOrder s.nRep s.data.d.length)
    (initFit_tables sp s true m)) h2)
  have hfr := (initFit_frame sp s true m).trans
    (fitLoop_frame F sp a.ext true m (cellOrder s.nRep s.data.d.length) (initFit sp s true m))
  generalize hu : (fitLoop F sp a.ext true m (initFit sp s true m) (cellOrder s.nRep s.data.d.length)).1 = u at *
  have ht : c.treat = tv := by
    have := H.treat
    rw [htv] at this
    exact (Option.some.inj this).symm
  obtain ⟨L', hL', hS'⟩ := H.smpls
  rw [hL] at hL'
  obtain rfl := Option.some.inj hL'
  rw [hS] at hS'
  obtain ⟨W, hW⟩ := Option.isSome_iff_exists.1 (hT.sens hsi)
  have hrep : u.nRep = s.nRep := hfr.settings.nRep
  have hag : (aggregate sp u).sens = some (validAt W u.nRep) := by
    show (if sp.sensImpl = true then u.sens.map fun S => validAt S u.nRep else u.sens) = _
    rw [if_pos hsi, hW]; rfl
  have hWk : W j k = some o.sens := hst.sens hsi W hW
  refine ⟨c, o, validateSens (fun i : Fin u.nRep => (W j i).getD .zero) ⟨k, by rw [hrep]; exact hk⟩, hce,
    by rw [← ht]; exact H.data, (Option.some.inj hS').symm, H.rep, by rw [h4]; exact hst.coef, ?_, ?_, ?_⟩
  · intro l r hl
    refine predVec_eq ?_
    rw [h4]
    obtain ⟨f, hf⟩ := Option.isSome_iff_exists.1 (hT.preds rfl)
    unfold LinState.predOf
    have hag' : (aggregate sp u).preds = u.preds := rfl
    dsimp only
    rw [hag', hf, Option.bind_some, hst.preds rfl f hf, Option.bind_some]
    exact hl
  · unfold Reported
    rw [h4]
    show ((aggregate sp u).sens.bind fun S => S j k) = _
    rw [hag, Option.bind_some]
    unfold validAt
    rw [dif_pos (by rw [hrep]; exact hk)]
  · unfold validateSens
    split_ifs
    · dsimp only
      rw [hWk]
      exact ⟨rfl, rfl, fun _ => rfl⟩
    · dsimp only
      rw [hWk]
      exact ⟨rfl, rfl, fun h => h⟩

/-! ## The properties -/

/-- **C74, PLR, partialling out.** -/
theorem C74_plr {F : Frame n} {c : PlrClass n P} (hiv : c.iv = false) {s t : LinState n P} {a : FitArgs} {j k : ℕ}
    {D : DataState n} {S : List (Fold n)} (h : FitAt F (plrSpec c) s a t j k D S) :
    ∃ θ e, (t.heap t.arr).coef j k = some θ ∧ Reported t j k e ∧
      let v := fun i => D.dNum i - t.predVec j k "ml_m" i
      (e.sigma2 = mean fun i => (D.yNum i - t.predVec j k "ml_l" i - θ * v i) ^ 2) ∧
      (∀ i, e.rr i = v i / mean fun i => v i ^ 2) ∧
      ((mean fun i => v i ^ 2) ≠ 0 → e.nu2 = mean fun i => e.rr i ^ 2) := by
  obtain ⟨ci, o, e, ho, rfl, -, -, h1, hp, he, h2, h3, h4⟩ := h.sens rfl
  obtain ⟨l, -, ho⟩ := bind_ok ho
  obtain ⟨m, -, ho⟩ := bind_ok ho
  obtain ⟨g, -, ho⟩ := bind_ok ho
  obtain rfl := Except.ok.inj ho
  refine ⟨_, e, h1, he, ?_⟩
  rw [hp "ml_l" l (by simp [lookupKey]), hp "ml_m" m (by simp [lookupKey])]
  refine ⟨?_, fun i => ?_, fun hne => h4 (plr_moment _ _ _ hne)⟩
  · rw [h2]
    dsimp only [plrSens]
    unfold plrResid2
    rw [hiv]
    rfl
  · rw [h3]
    show (_ - _) * (1 / _) = _
    rw [mul_one_div]
    rfl

/-- **C74, PLR, IV-type.** -/
theorem C74_plr_iv {F : Frame n} {c : PlrClass n P} (hiv : c.iv = true) {s t : LinState n P} {a : FitArgs} {j k : ℕ}
    {D : DataState n} {S : List (Fold n)} (h : FitAt F (plrSpec c) s a t j k D S) :
    ∃ θ e, (t.heap t.arr).coef j k = some θ ∧ Reported t j k e ∧
      let v := fun i => D.dNum i - t.predVec j k "ml_m" i
      (e.sigma2 = mean fun i => (D.yNum i - t.predVec j k "ml_g" i - θ * D.dNum i) ^ 2) ∧
      (∀ i, e.rr i = v i / mean fun i => v i ^ 2) ∧
      ((mean fun i => v i ^ 2) ≠ 0 → e.nu2 = mean fun i => e.rr i ^ 2) := by
  obtain ⟨ci, o, e, ho, rfl, -, -, h1, hp, he, h2, h3, h4⟩ := h.sens rfl
  obtain ⟨l, -, ho⟩ := bind_ok ho
  obtain ⟨m, -, ho⟩ := bind_ok ho
  obtain ⟨g, -, ho⟩ := bind_ok ho
  obtain rfl := Except.ok.inj ho
  refine ⟨_, e, h1, he, ?_⟩
  rw [hp "ml_g" g (by simp [lookupKey]), hp "ml_m" m (by simp [lookupKey])]
  refine ⟨?_, fun i => ?_, fun hne => h4 (plr_moment _ _ _ hne)⟩
  · rw [h2]
    dsimp only [plrSens]
    unfold plrResid2
    rw [hiv]
    rfl
  · rw [h3]
    show (_ - _) * (1 / _) = _
    rw [mul_one_div]
    rfl

/-- **C74, IRM, score ATE with weights.** -/
theorem C74_irm_ate [DecidableEq X] {F : Frame n} {c : IrmClass n P} (hsc : c.atte = false) {s t : LinState n P} {a : FitArgs}
    {j k : ℕ} {D : DataState n} {S : List (Fold n)} (h : FitAt F (irmSpec c) s a t j k D S) (hd : Binary D.dNum)
    {w wb : Fin n → ℝ} (hw : c.weights.at k = .ok (w, wb)) :
    ∃ e, Reported t j k e ∧
      let d := D.dNum
      let m := t.predVec j k "ml_m"
      (e.sigma2 = mean fun i => (D.yNum i - d i * t.predVec j k "ml_g1" i - (1 - d i) * t.predVec j k "ml_g0" i) ^ 2) ∧
      (∀ i, e.rr i = wb i * (ipw c.normalize d m i - ipw c.normalize (fun i => 1 - d i) (fun i => 1 - m i) i)) ∧
      ((∀ i, 0 < m i ∧ m i < 1) → ∀ x : Fin n → X, Calibrated x d m → Calibrated x w wb →
        e.nu2 = mean fun i => e.rr i ^ 2) := by
  obtain ⟨ci, o, e, ho, rfl, -, hk, -, hp, he, h2, h3, h4⟩ := h.sens rfl
  obtain ⟨g0, -, ho⟩ := bind_ok ho
  obtain ⟨g1, -, ho⟩ := bind_ok ho
  obtain ⟨_, -, ho⟩ := bind_ok ho
  obtain ⟨m, -, ho⟩ := bind_ok ho
  obtain ⟨w', h5, ho⟩ := bind_ok ho
  unfold irmWeights at h5
  rw [hsc, hk, hw] at h5
  obtain rfl := Except.ok.inj h5
  obtain rfl := Except.ok.inj ho
  refine ⟨e, he, ?_⟩
  rw [hp "ml_g0" g0 (by simp [lookupKey]), hp "ml_g1" g1 (by simp [lookupKey]),
    hp "ml_m" (trimRes c.trimT m) (by simp [lookupKey])]
  refine ⟨h2, fun i => ?_, fun hm x hx hwx => h4 ?_⟩
  · rw [h3]
    have k1 := ipw_adjust c.normalize hd (m := (trimRes c.trimT m).vec) 1 i
    have k0 := ipw_adjust_zero c.normalize hd (m := (trimRes c.trimT m).vec) 1 i
    rw [mul_one, mul_one] at k1 k0
    rw [← k1, ← k0]
    rfl
  · dsimp only
    have e1 : ci.data.dNum = ci.d := rfl
    rw [e1] at hd hx
    rw [hx.adjust_eq hm c.normalize]
    exact irm_moment hd hm hx hwx

/-- **C74, IRM, score ATTE for the subgroup (or with the weights) `v`**; untreated observations enter the Riesz representer
with the odds `m / (1 - m)`. -/
theorem C74_irm_atte [DecidableEq X] {F : Frame n} {c : IrmClass n P} (hsc : c.atte = true) {s t : LinState n P} {a : FitArgs}
    {j k : ℕ} {D : DataState n} {S : List (Fold n)} (h : FitAt F (irmSpec c) s a t j k D S) (hd : Binary D.dNum)
    {v : Fin n → ℝ} (hv : ∀ i : Fin n, c.weights.weights.entries.getD i 0 = v i) :
    ∃ e, Reported t j k e ∧
      let d := D.dNum
      let m := t.predVec j k "ml_m"
      let p := mean fun i => v i * d i
      (e.sigma2 = mean fun i => (D.yNum i - d i * t.predVec j k "ml_g1" i - (1 - d i) * t.predVec j k "ml_g0" i) ^ 2) ∧
      ((∀ i, 0 < m i ∧ m i < 1) → c.normalize = false → ∀ i, e.rr i = v i / p * (d i - (1 - d i) * (m i / (1 - m i)))) ∧
      ((∀ i, 0 < m i ∧ m i < 1) → ∀ x : Fin n → X, Calibrated x d m → (∀ i j, x i = x j → v i = v j) →
        (∀ i, e.rr i = v i / p * (d i - (1 - d i) * (m i / (1 - m i)))) ∧ e.nu2 = mean fun i => e.rr i ^ 2) := by
  obtain ⟨ci, o, e, ho, rfl, -, hk, -, hp, he, h2, h3, h4⟩ := h.sens rfl
  obtain ⟨g0, -, ho⟩ := bind_ok ho
  obtain ⟨g1, -, ho⟩ := bind_ok ho
  obtain ⟨_, -, ho⟩ := bind_ok ho
  obtain ⟨m, -, ho⟩ := bind_ok ho
  obtain ⟨w', h5, ho⟩ := bind_ok ho
  unfold irmWeights at h5
  rw [hsc, if_pos rfl] at h5
  obtain rfl := Except.ok.inj h5
  obtain rfl := Except.ok.inj ho
  refine ⟨e, he, ?_⟩
  rw [hp "ml_g0" g0 (by simp [lookupKey]), hp "ml_g1" g1 (by simp [lookupKey]),
    hp "ml_m" (trimRes c.trimT m) (by simp [lookupKey])]
  have e1 : ci.data.dNum = ci.d := rfl
  rw [e1] at hd ⊢
  dsimp only at h2 h3 h4 ⊢
  simp only [hv] at h2 h3 h4
  generalize (trimRes c.trimT m).vec = M at *
  have hrr : (∀ i, 0 < M i ∧ M i < 1) → adjust c.normalize M ci.d = M →
      ∀ i, e.rr i = v i / (mean fun i => v i * ci.d i) * (ci.d i - (1 - ci.d i) * (M i / (1 - M i))) := by
    intro hm hadj i
    rw [h3, hadj]
    dsimp only [irmSens, sensOf, atteWeights]
    have hm1 := (hm i).1.ne'
    have hm2 : 1 - M i ≠ 0 := by linarith [(hm i).2]
    by_cases hpp : mean (fun i => v i * ci.d i) = 0
    · rw [hpp]
      simp
    field_simp
  refine ⟨h2, fun hm hn => hrr hm (by rw [hn]; rfl), fun hm x hx hvx => ⟨hrr hm (hx.adjust_eq hm _), h4 ?_⟩⟩
  rw [hx.adjust_eq hm]
  refine irm_moment hd hm hx ?_
  have := hx.scale (f := fun i => v i / mean fun i => v i * ci.d i) fun i j hij => by rw [hvx i j hij]
  have e3 : (atteWeights v ci.d M).1 = fun i => v i / (mean fun i => v i * ci.d i) * ci.d i := by
    funext i
    show v i * ci.d i / _ = _
    ring
  have e4 : (atteWeights v ci.d M).2 = fun i => v i / (mean fun i => v i * ci.d i) * M i := by
    funext i
    dsimp only [atteWeights]
    ring
  rw [e3, e4]
  exact this

/-- **C74, APO.** -/
theorem C74_apo [DecidableEq X] {F : Frame n} {c : ApoClass n P} {s t : LinState n P} {a : FitArgs} {j k : ℕ}
    {D : DataState n} {S : List (Fold n)} (h : FitAt F (apoSpec c) s a t j k D S) {w wb ind : Fin n → ℝ}
    (hw : c.weights.at k = .ok (w, wb)) (hind : IsIndicator D.dNum c.level ind) :
    ∃ e, Reported t j k e ∧
      let m := t.predVec j k "ml_m"
      (e.sigma2 = mean fun i =>
        (D.yNum i - ind i * t.predVec j k "ml_g_d_lvl1" i - (1 - ind i) * t.predVec j k "ml_g_d_lvl0" i) ^ 2) ∧
      (∀ i, e.rr i = wb i * ipw c.normalize ind m i) ∧
      ((∀ i, 0 < m i ∧ m i < 1) → ∀ x : Fin n → X, Calibrated x ind m → Calibrated x w wb →
        e.nu2 = mean fun i => e.rr i ^ 2) := by
  obtain ⟨ci, o, e, ho, rfl, -, hk, -, hp, he, h2, h3, h4⟩ := h.sens rfl
  obtain ⟨g1, -, ho⟩ := bind_ok ho
  obtain ⟨_, -, ho⟩ := bind_ok ho
  obtain ⟨g0, -, ho⟩ := bind_ok ho
  obtain ⟨_, -, ho⟩ := bind_ok ho
  obtain ⟨m, -, ho⟩ := bind_ok ho
  obtain ⟨w', h5, ho⟩ := bind_ok ho
  rw [hk, hw] at h5
  obtain rfl := Except.ok.inj h5
  obtain rfl := Except.ok.inj ho
  have hti : c.treated ci = ind := by
    funext i
    unfold ApoClass.treated
    by_cases hi : ci.d i = c.level
    · rw [if_pos hi, (hind i).1 hi]
    · rw [if_neg hi, (hind i).2 hi]
  have hb : Binary ind := fun i => by
    by_cases hi : ci.data.dNum i = c.level
    · exact Or.inr ((hind i).1 hi)
    · exact Or.inl ((hind i).2 hi)
  dsimp only at h2 h3 h4
  rw [hti] at h2 h3 h4
  refine ⟨e, he, ?_⟩
  rw [hp "ml_g_d_lvl0" g0 (by simp [lookupKey]), hp "ml_g_d_lvl1" g1 (by simp [lookupKey]),
    hp "ml_m" (trimRes c.trimT m) (by simp [lookupKey])]
  refine ⟨h2, fun i => ?_, fun hm x hx hwx => h4 ?_⟩
  · rw [h3]
    have k1 := ipw_adjust c.normalize hb (m := (trimRes c.trimT m).vec) 1 i
    rw [mul_one, mul_one] at k1
    rw [← k1]
    rfl
  · rw [hx.adjust_eq hm c.normalize]
    exact apo_moment hb (fun i => (hm i).1.ne') hx hwx

/-- **C74, DiD for panel data.** -/
theorem C74_did [DecidableEq X] {F : Frame n} {c : DidClass n P} {s t : LinState n P} {a : FitArgs} {j k : ℕ}
    {D : DataState n} {S : List (Fold n)} (h : FitAt F (didSpec c) s a t j k D S) (hd : Binary D.dNum) :
    ∃ e, Reported t j k e ∧
      let d := D.dNum
      let m := t.predVec j k "ml_m"
      (e.sigma2 = mean fun i => (D.yNum i - d i * t.predVec j k "ml_g1" i - (1 - d i) * t.predVec j k "ml_g0" i) ^ 2) ∧
      (∀ i, e.rr i = match c.score, c.normalize with
        | .observational, true =>
          d i / mean d - (1 - d i) * (m i / (1 - m i)) / mean fun l => (1 - d l) * (m l / (1 - m l))
        | .observational, false => (d i - (1 - d i) * (m i / (1 - m i))) / mean d
        | .experimental, _ => d i / mean d - (1 - d i) / (1 - mean d)) ∧
      (c.score = .experimental → 0 < mean d → mean d < 1 → e.nu2 = mean fun i => e.rr i ^ 2) ∧
      (c.score = .observational → (∀ i, 0 < m i ∧ m i < 1) → ∀ x : Fin n → X, Calibrated x d m →
        e.nu2 = mean fun i => e.rr i ^ 2) := by
  obtain ⟨ci, o, e, ho, rfl, -, hk, -, hp, he, h2, h3, h4⟩ := h.sens rfl
  obtain ⟨g0, -, ho⟩ := bind_ok ho
  obtain ⟨g1, -, ho⟩ := bind_ok ho
  obtain ⟨m, -, ho⟩ := bind_ok ho
  obtain rfl := Except.ok.inj ho
  refine ⟨e, he, ?_⟩
  rw [hp "ml_g0" g0 (by simp [lookupKey]), hp "ml_g1" g1 (by simp [lookupKey]), hp "ml_m" m (by simp [lookupKey])]
  have e1 : ci.data.dNum = ci.d := rfl
  have e2 : ci.data.yNum = ci.y := rfl
  rw [e1] at hd ⊢
  rw [e2]
  dsimp only at h2 h3 h4 ⊢
  refine ⟨?_, fun i => ?_, fun hs h0 h1 => h4 ?_, fun hs hm x hx => h4 ?_⟩
  · rw [h2]
    show mean _ = _
    congr 1
    funext i
    ring
  · rw [h3]
    show didRr c.score c.normalize ci.d m.vec i = _
    unfold didRr
    cases c.score <;> cases c.normalize <;> dsimp only
    ring
  · rw [hs]
    exact did_moment_exp c.normalize hd h0.ne' h1.ne
  · rw [hs]
    exact did_moment_obs c.normalize hd (fun i => (hm i).2) hx

/-- **C74, DiD for repeated cross-sections**; of the Riesz representer the squares are given (its signs: C59). -/
theorem C74_didcs [DecidableEq X] {F : Frame n} {c : DidClass n P} {s t : LinState n P} {a : FitArgs} {j k : ℕ}
    {D : DataState n} {S : List (Fold n)} (h : FitAt F (csSpec c) s a t j k D S) (hd : Binary D.dNum) {tv : Fin n → Cell}
    (ht : D.tv = some tv) (hT : Binary fun i => (tv i).val) :
    ∃ e, Reported t j k e ∧
      let d := D.dNum
      let T := fun i => (tv i).val
      let m := t.predVec j k "ml_m"
      let odds := fun i => m i / (1 - m i)
      (e.sigma2 = mean fun i => (D.yNum i - (1 - d i) * (1 - T i) * t.predVec j k "ml_g_d0_t0" i -
        (1 - d i) * T i * t.predVec j k "ml_g_d0_t1" i - d i * (1 - T i) * t.predVec j k "ml_g_d1_t0" i -
        d i * T i * t.predVec j k "ml_g_d1_t1" i) ^ 2) ∧
      (∀ i, e.rr i ^ 2 = match c.score, c.normalize with
        | .observational, true =>
          ((d i * T i / mean fun l => d l * T l) - (d i * (1 - T i) / mean fun l => d l * (1 - T l)) -
            ((1 - d i) * T i * odds i / mean fun l => (1 - d l) * T l * odds l) +
            ((1 - d i) * (1 - T i) * odds i / mean fun l => (1 - d l) * (1 - T l) * odds l)) ^ 2
        | .observational, false =>
          ((d i * T i - (1 - d i) * T i * odds i) / (mean d * mean T) -
            (d i * (1 - T i) - (1 - d i) * (1 - T i) * odds i) / (mean d * (1 - mean T))) ^ 2
        | .experimental, true =>
          ((d i * T i / mean fun l => d l * T l) - (d i * (1 - T i) / mean fun l => d l * (1 - T l)) -
            ((1 - d i) * T i / mean fun l => (1 - d l) * T l) +
            ((1 - d i) * (1 - T i) / mean fun l => (1 - d l) * (1 - T l))) ^ 2
        | .experimental, false =>
          (d i * T i / (mean d * mean T) - d i * (1 - T i) / (mean d * (1 - mean T)) -
            (1 - d i) * T i / ((1 - mean d) * mean T) + (1 - d i) * (1 - T i) / ((1 - mean d) * (1 - mean T))) ^ 2) ∧
      (c.score = .experimental → c.normalize = true → (mean fun l => d l * T l) ≠ 0 → (mean fun l => d l * (1 - T l)) ≠ 0 →
        (mean fun l => (1 - d l) * T l) ≠ 0 → (mean fun l => (1 - d l) * (1 - T l)) ≠ 0 →
        e.nu2 = mean fun i => e.rr i ^ 2) ∧
      (c.score = .experimental → 0 < mean d → mean d < 1 → 0 < mean T → mean T < 1 →
        (mean fun i => d i * T i) = mean d * mean T → e.nu2 = mean fun i => e.rr i ^ 2) ∧
      (c.score = .observational → 0 < mean d → 0 < mean T → mean T < 1 → (∀ i, 0 < m i ∧ m i < 1) →
        ∀ x : Fin n → X, Calibrated x d m → Calibrated (fun i => (x i, d i)) T (fun _ => mean T) →
        e.nu2 = mean fun i => e.rr i ^ 2) := by
  obtain ⟨ci, o, e, ho, rfl, -, hk, -, hp, he, h2, h3, h4⟩ := h.sens rfl
  obtain ⟨T, hTT, ho⟩ := bind_ok ho
  obtain ⟨g00, -, ho⟩ := bind_ok ho
  obtain ⟨g01, -, ho⟩ := bind_ok ho
  obtain ⟨g10, -, ho⟩ := bind_ok ho
  obtain ⟨g11, -, ho⟩ := bind_ok ho
  obtain ⟨m, -, ho⟩ := bind_ok ho
  have hT' : (fun i => (tv i).val) = T := by
    unfold CellIn.time at hTT
    rw [ht] at hTT
    exact Except.ok.inj hTT
  obtain rfl := Except.ok.inj ho
  refine ⟨e, he, ?_⟩
  rw [hp "ml_g_d0_t0" g00 (by simp [lookupKey]), hp "ml_g_d0_t1" g01 (by simp [lookupKey]),
    hp "ml_g_d1_t0" g10 (by simp [lookupKey]), hp "ml_g_d1_t1" g11 (by simp [lookupKey]),
    hp "ml_m" m (by simp [lookupKey])]
  have e1 : ci.data.dNum = ci.d := rfl
  have e2 : ci.data.yNum = ci.y := rfl
  rw [e1] at hd ⊢
  rw [hT'] at hT ⊢
  rw [e2]
  dsimp only at h2 h3 h4 ⊢
  refine ⟨?_, fun i => ?_, fun hs hn k11 k10 k01 k00 => h4 ?_, fun hs h0 h1 k0 k1 hdt => h4 ?_,
    fun hs h0 k0 k1 hm x hx hxT => h4 ?_⟩
  · rw [h2]
    show mean _ = _
    congr 1
    funext i
    show (ci.y i - ((1 - ci.d i) * (1 - T i) * g00.vec i + (1 - ci.d i) * T i * g01.vec i + ci.d i * (1 - T i) * g10.vec i +
      ci.d i * T i * g11.vec i)) ^ 2 = _
    ring
  · rw [h3]
    show csRr c.score c.normalize ci.d T m.vec i ^ 2 = _
    unfold csRr
    cases c.score <;> cases c.normalize <;> dsimp only [cells]
    rcases hd i with h0 | h0 <;> rcases hT i with h1 | h1 <;> rw [h0, h1] <;> ring
  · rw [hs, hn]
    exact cs_moment_exp_norm hd hT k11 k10 k01 k00
  · rw [hs]
    cases c.normalize
    · exact cs_moment_exp hd hT h0.ne' h1.ne k0.ne' k1.ne hdt
    · have hn : 0 < n := by
        rcases Nat.eq_zero_or_pos n with rfl | hn
        · exact absurd h0 (by simp [mean])
        · exact hn
      obtain ⟨k11, k10, k01, k00⟩ := mean_cells hn hdt
      have h1' : 0 < 1 - mean ci.d := by linarith
      have k1' : 0 < 1 - mean T := by linarith
      exact cs_moment_exp_norm hd hT (by rw [k11]; positivity) (by rw [k10]; positivity) (by rw [k01]; positivity)
        (by rw [k00]; positivity)
  · rw [hs]
    exact cs_moment_obs c.normalize hd hT h0.ne' k0.ne' k1.ne (fun i => (hm i).2) hx hxT

/-! ## Non-vacuity -/

/-- A learner that gives all classes the probability 1/2. -/
noncomputable def exHalfL : Learner ℕ (List Cell) where
  predict := fun _ _ _ => 0
  proba := fun _ D _ => (classesOf D).map fun _ => 1 / 2

theorem exHalfL_compliant : exHalfL.Compliant := fun _ _ _ => by simp [exHalfL]

theorem exHalf_calibrated : Calibrated (fun _ : Fin 4 => ()) ![0, 1, 0, 1] fun _ => 1 / 2 := by
  refine ⟨fun _ _ _ => rfl, fun g => ?_⟩
  simp [Fin.sum_univ_four]
  norm_num

/-- The conditions of `C74_irm_ate` and `C74_irm_atte` under which the second moment is reported are met by a fit (the same
data and learners meet those of `C74_apo` and `C74_did`; for fits of the other classes see C73). -/
example (E : Ext) (F : Frame 4) (y : Fin 4 → ℝ) (atte : Bool) :
    ∃ s t : LinState 4 ℕ, FitAt F (irmSpec { exIrm4 with ml_m := exHalfL, atte := atte }) s {} t 0 0 (exData4 y) exFolds4 ∧
      Binary (exData4 y).dNum ∧ exIrm4.weights.at 0 = .ok ((fun _ => 1, fun _ => 1) : (Fin 4 → ℝ) × (Fin 4 → ℝ)) ∧
      (∀ i, 0 < t.predVec 0 0 "ml_m" i ∧ t.predVec 0 0 "ml_m" i < 1) ∧
      Calibrated (fun _ : Fin 4 => ()) (exData4 y).dNum (t.predVec 0 0 "ml_m") ∧
      Calibrated (fun _ : Fin 4 => ()) (fun _ => 1) fun _ => 1 := by
  have hd : nums (exData4 y).dv = ![(0 : ℝ), 1, 0, 1] := rfl
  have hd' : (exData4 y).dNum = ![(0 : ℝ), 1, 0, 1] := rfl
  have ha : ∀ sp : LinSpec 4 ℕ, ValidArgs sp "d" 1 {} := fun sp => ⟨.inl rfl, ⟨true, rfl⟩, ⟨false, rfl⟩, .inl rfl⟩
  obtain ⟨s, h1, h2, h3⟩ := exReached4 E F (sp := irmSpec { exIrm4 with ml_m := exHalfL, atte := atte }) rfl rfl y "ml_g1"
  have hfit : FitAt F (irmSpec { exIrm4 with ml_m := exHalfL, atte := atte }) s {} _ 0 0 (exData4 y) exFolds4 :=
    .single rfl h1 h2 h3 rfl (C63_irm rfl rfl exHalfL_compliant rfl (by rw [hd]; exact ex_d4.1) h1 h2
      (by rw [hd]; exact ex_every ex_d4.2) ex_irm_weights (by rw [h3]; exact ha _))
  have hm : LinState.predVec (fit F (irmSpec { exIrm4 with ml_m := exHalfL, atte := atte }) s {}).1 0 0 "ml_m" =
      fun _ => 1 / 2 := by
    have hsd : s.data = exData4 y := (h1.ready rfl).2
    obtain ⟨c, o, l, hcell, -, ho, -, -, -, -, -, hpr, -⟩ := fit_cells hfit.fitted (p := true) (m := false) (j := 0) (k := 0) rfl rfl
      (by rw [hsd]; exact one_pos) (by rw [h3]; exact one_pos)
    have htr : c.treat = "d" := by
      have := hcell.treat
      rw [hsd] at this
      exact (Option.some.inj this).symm
    have hdata : c.data = exData4 y := by
      rw [hcell.data, htr, hsd]
      rfl
    have hsm : c.smpls = exFolds4 := by
      obtain ⟨L', h4, h5⟩ := hcell.smpls
      rw [h2] at h4
      obtain rfl := Option.some.inj h4
      exact (Option.some.inj h5).symm
    have hcd : c.d = ![(0 : ℝ), 1, 0, 1] := by
      unfold CellIn.d
      rw [hdata]
      exact hd
    obtain ⟨g0, g1, m, w, -, -, -, hpm, -, -, hop, -⟩ := irmEst_ok ho
    have hpo : LinState.predOf (fit F (irmSpec { exIrm4 with ml_m := exHalfL, atte := atte }) s {}).1 0 0 "ml_m" =
        some (trimRes (1 / 100) m).preds := by
      obtain ⟨T, hT, hT'⟩ := Option.map_eq_some_iff.1 (hpr rfl)
      unfold LinState.predOf
      rw [hT, Option.bind_some]
      have h0 : T 0 0 = some (o.preds, o.targets) := hT'
      rw [h0, Option.bind_some, hop]
      simp [lookupKey, exIrm4]
    rw [predVec_eq hpo]
    unfold propM at hpm
    rw [extOf_none hcell] at hpm
    obtain ⟨r, hcv, hpm⟩ := bind_ok hpm
    obtain ⟨_, -, hpm⟩ := bind_ok hpm
    obtain rfl := Except.ok.inj hpm
    funext i
    have hi : ∃ q, ∃ hq : q < c.smpls.length, i ∈ c.smpls[q].test := by
      rw [hsm]
      fin_cases i
      · exact ⟨0, by decide, by decide⟩
      · exact ⟨0, by decide, by decide⟩
      · exact ⟨1, by decide, by decide⟩
      · exact ⟨1, by decide, by decide⟩
    obtain ⟨q, hq, hi⟩ := hi
    have hbc : BothClasses c.d c.smpls[q] := by
      have := ex_d4.2 c.smpls[q] (by rw [← hsm]; exact List.getElem_mem hq)
      rw [hcd]
      obtain ⟨⟨a, ha, -, ha'⟩, b, hb, -, hb'⟩ := this
      exact ⟨⟨a, ha, ha'⟩, b, hb, hb'⟩
    have hv := C26_prediction_rule_proba exHalfL_compliant (y := c.d) rfl rfl (by rw [hcd]; exact ex_d4.1)
      (by show isPartition c.smpls = true; rw [hsm]; decide) hcv q hq i hi hbc
    obtain ⟨v, hv0⟩ := Option.isSome_iff_exists.1 hv.1
    have hv1 := hv.2
    rw [hv0] at hv1
    have hv2 : v = 1 / 2 := by
      obtain ⟨hlt, hv1⟩ := List.getElem?_eq_some_iff.1 hv1.symm
      rw [← hv1]
      simp [exHalfL]
    show ((r.preds i).map (trim (1 / 100))).getD 0 = 1 / 2
    rw [hv0, hv2]
    norm_num [trim]
  refine ⟨s, _, hfit, ?_, ?_, ?_, ?_, ⟨fun _ _ _ => rfl, fun _ => rfl⟩⟩
  · intro i
    rw [hd']
    fin_cases i <;> simp
  · refine congrArg Except.ok (Prod.ext ?_ ?_) <;> funext i <;> fin_cases i <;> rfl
  · intro i
    rw [hm]
    norm_num
  · rw [hm, hd']
    exact exHalf_calibrated

/-- Repeated cross-sections: treatment and period are independent. -/
example : Calibrated (fun i : Fin 4 => ((), (![0, 1, 0, 1] : Fin 4 → ℝ) i)) ![0, 0, 1, 1]
    (fun _ => mean (![0, 0, 1, 1] : Fin 4 → ℝ)) := by
  refine ⟨fun _ _ _ => rfl, ?_⟩
  rintro ⟨-, v⟩
  have hmean : mean (![0, 0, 1, 1] : Fin 4 → ℝ) = 1 / 2 := by
    norm_num [mean, Fin.sum_univ_four, Matrix.cons_val_two, Matrix.cons_val_three]
  rw [hmean, Finset.sum_filter, Finset.sum_filter, Fin.sum_univ_four, Fin.sum_univ_four]
  by_cases h0 : v = 0
  · subst h0
    norm_num [Matrix.cons_val_two, Matrix.cons_val_three]
  · by_cases h1 : v = 1
    · subst h1
      norm_num [Matrix.cons_val_two, Matrix.cons_val_three]
    · have h0' : ¬ 0 = v := fun h => h0 h.symm
      have h1' : ¬ 1 = v := fun h => h1 h.symm
      simp [h0', h1', Matrix.cons_val_two, Matrix.cons_val_three]

end DML
