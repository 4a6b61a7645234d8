import Verif.JointPlrProps
import Verif.AsymptoticExamples

/-!
# Several treatments in large samples: an example

Two treatments that are not covariates of each other, with learners that have to learn from their training data.
-/

namespace DML

open MeasureTheory ProbabilityTheory Filter Topology
open scoped ENNReal

/-- The two treatments. -/
noncomputable def twoD (j : Fin 2) (w : Fin 3 → Bool) : ℝ := 3 + sgn (w j.succ)

/-- The outcome: effects 2 and 1. -/
noncomputable def twoY (w : Fin 3 → Bool) : ℝ := 2 * twoD 0 w + twoD 1 w

def twoNames : Fin 2 → String := ![("d1" : String), "d2"]

noncomputable def twoFrame (n : ℕ) (ω : ℕ → Fin 3 → Bool) : Frame n :=
  ⟨["y", "d1", "d2", "x"], fun c i => .num (if c = "y" then twoY (ω i) else if c = "d1" then twoD 0 (ω i) else if c = "d2" then twoD 1 (ω i)
    else plrX (ω i))⟩

noncomputable def twoData (n : ℕ) (ω : ℕ → Fin 3 → Bool) : DataState n where
  y := "y"
  d := ["d1", "d2"]
  x := ["x"]
  z := none
  t := none
  s := none
  cluster := none
  useOther := false
  force := .yes
  yv := (twoFrame n ω).col "y"
  zv := none
  tv := none
  sv := none
  dv := (twoFrame n ω).col "d1"
  xv := [(twoFrame n ω).col "x"]
  cv := []
  binTreats := [("d1", isBinaryCol ((twoFrame n ω).col "d1")), ("d2", isBinaryCol ((twoFrame n ω).col "d2"))]
  binOut := isBinaryCol ((twoFrame n ω).col "y")

theorem two_fresh (n : ℕ) (ω : ℕ → Fin 3 → Bool) : FreshData (twoFrame n ω) (twoData n ω) := by
  have hf : ∀ c, finiteCol ((twoFrame n ω).col c) := fun c i => ⟨_, rfl⟩
  have hc : (twoFrame n ω).cols = ["y", "d1", "d2", "x"] := rfl
  refine ⟨by rw [hc]; decide, none, ⟨.str "y", .list ["d1", "d2"], .str "x", .none, .none, .none, .bool false, .bool true⟩, ?_⟩
  unfold dataInit
  have e1 : clusterArg (twoFrame n ω) none = .ok none := rfl
  have e2 : colStr (twoFrame n ω) (.str "y") = .ok "y" := by
    unfold colStr
    dsimp only
    rw [hc, if_pos (by decide)]
  have e3 : colList (twoFrame n ω) (.list ["d1", "d2"]) = .ok ["d1", "d2"] := by
    unfold colList
    dsimp only
    rw [hc, if_neg (by decide), if_pos (by decide)]
  have e4 : ∀ S, xArg (twoFrame n ω) S (.str "x") = .ok ["x"] := fun S => by
    unfold xArg colList
    dsimp only
    rw [hc, if_pos (by decide)]
  simp only [e1, e2, e3, e4, zArg, optArg, Bind.bind, Except.bind, checkBool, forceArg]
  rw [if_neg (by simp), if_neg (by simp [disjointBase, disj, disjointTS]), if_neg (by simp [hf]), if_neg (by simp [hf])]
  simp only [setYZTS, hf, not_true_eq_false, if_false, Option.mem_def, reduceCtorEq, implies_true, setXDFirst]
  rw [setXD, if_neg (by simp), if_neg (by simp [hf]), if_neg (by simp [hf]), if_neg (by simp)]
  rfl

theorem two_holds : HoldsMany (fun i (ω : ℕ → Fin 3 → Bool) => ω i) twoNames twoY twoD (fun _ => plrX) (fun _ v => [Cell.num v]) twoFrame
    twoData where
  fresh := two_fresh
  treats := fun _ _ => rfl
  outcome := fun _ _ _ => rfl
  treatment := fun j n ω i => by fin_cases j <;> rfl
  covariates := fun j n ω i => by fin_cases j <;> rfl
  measY := measurable_coin _
  measD := fun _ => measurable_coin _
  measX := fun _ => measurable_coin _

noncomputable def twoTheta : Fin 2 → ℝ := ![2, 1]
noncomputable def twoG : Fin 2 → ℝ := ![3, 6]

theorem two_resid (j : Fin 2) (w : Fin 3 → Bool) : twoY w - twoTheta j * twoD j w - twoG j = twoTheta j.rev * sgn (w j.rev.succ) := by
  fin_cases j <;> simp [twoY, twoTheta, twoG, twoD, Fin.rev] <;> ring

theorem twoD_resid (j : Fin 2) (w : Fin 3 → Bool) : twoD j w - 3 = sgn (w j.succ) := by
  unfold twoD
  ring

theorem two_law (j : Fin 2) : PlrLaw coins twoY (twoD j) plrX (twoTheta j) (fun _ => twoG j) (fun _ => 3) 4 := by
  have h4 : ∀ i : Fin 3, MemLp (fun w => sgn (w i)) 4 coins := fun i => memLp_of_bdd (measurable_coin _) fun w => (sgn_abs _).le
  have i1 : IndepFun (fun w : Fin 3 → Bool => sgn (w j.succ)) plrX coins :=
    (coins_indep.indepFun (i := j.succ) (j := 0) (by simp)).comp (φ := sgn) (ψ := sgn) (measurable_of_countable _) (measurable_of_countable _)
  have i2 : IndepFun (fun w : Fin 3 → Bool => twoTheta j.rev * sgn (w j.rev.succ)) (fun w => (twoD j w, plrX w)) coins :=
    (coins_indep.indepFun_prodMk (fun i => measurable_pi_apply i) j.succ 0 j.rev.succ (by fin_cases j <;> decide) (Fin.succ_ne_zero _).symm).symm.comp
      (φ := fun b => twoTheta j.rev * sgn b) (ψ := fun b : Bool × Bool => (3 + sgn b.1, sgn b.2)) (measurable_of_countable _)
      (measurable_of_countable _)
  have t1 : MeanZeroGiven coins plrX fun w => twoD j w - 3 := by
    simp only [twoD_resid]
    exact meanZero_of_indep (measurable_coin _) (measurable_coin _) i1 (coin_mean _)
  have t2 : MeanZeroGiven coins (fun w => (twoD j w, plrX w)) fun w => twoY w - twoTheta j * twoD j w - twoG j := by
    simp only [two_resid]
    exact meanZero_of_indep (measurable_coin _) (measurable_coin _) i2 (by rw [integral_const_mul, coin_mean, mul_zero])
  exact ⟨measurable_coin _, measurable_coin _, measurable_coin _, measurable_coin _, measurable_const, measurable_const,
    measurable_const, t2, t1, t1, by simp only [two_resid]; exact (h4 _).const_mul _, by simp only [twoD_resid]; exact h4 _,
    by simp only [twoD_resid]; exact h4 _⟩

theorem twoD_mean (j : Fin 2) : ∫ w, twoD j w ∂(tosses.map fun ω => ω 0) = 3 := by
  rw [tosses_law]
  unfold twoD
  rw [integral_add (integrable_const _) Integrable.of_finite, coin_mean]
  simp

theorem twoY_mean (j : Fin 2) : ∫ w, twoY w ∂(tosses.map fun ω => ω 0) = twoTheta j * 3 + twoG j := by
  unfold twoY
  rw [integral_add (by rw [tosses_law]; exact Integrable.of_finite) (by rw [tosses_law]; exact Integrable.of_finite), integral_const_mul,
    twoD_mean, twoD_mean]
  fin_cases j <;> simp [twoTheta, twoG] <;> norm_num

/-- The models with one treatment alone. -/
noncomputable def twoStudy (E : Ext) (j : Fin 2) : Study E tosses (fun i ω => ω i) 3 2 (fun n => plrSpec (plrMean n)) (twoNames j) twoY (twoD j)
    plrX fun v => [Cell.num v] :=
  two_holds.study E tosses_iid le_rfl (by norm_num) (fun _ => rfl) (fun _ => rfl) (w := plainDraws) (fun _ _ _ => two_pos) (a := {})
    (fun _ n m => plainArgs _ _ m) rfl j

theorem two_rates (E : Ext) (j : Fin 2) : PlrRates (twoStudy E j) (fun _ => twoTheta j * 3 + twoG j) (fun _ => 3) := by
  have hs : ∀ n α, (twoStudy E j).splits n α = (List.range 3).map fun _ => kfold 2 (Equiv.refl (Fin n)) := fun _ _ => rfl
  have hL : ∀ᶠ n in atTop, ∀ T ∈ (List.range 3).map fun _ => kfold 2 (Equiv.refl (Fin n)), ∀ f ∈ T,
      f.train.Nodup ∧ n ≤ 4 * f.train.length := by
    filter_upwards [eventually_ge_atTop 8] with n hn T hT f hf
    obtain ⟨q, -, rfl⟩ := List.mem_map.1 hT
    exact kfold_train_length le_rfl (by omega) hn _ hf
  have bd : ∀ j w, |twoD j w| ≤ 4 := fun j w => by
    unfold twoD sgn
    cases w j.succ <;> norm_num
  have by' : ∀ w, |twoY w| ≤ 12 := fun w => by
    have h0 := abs_le.1 (bd 0 w)
    have h1 := abs_le.1 (bd 1 w)
    unfold twoY
    rw [abs_le]
    constructor <;> linarith
  have rl : ∀ {c : ℕ → ℝ}, (∀ n, 0 ≤ c n) ∧ Tendsto (fun n => c n ^ 2 / n) atTop (𝓝 0) → ∀ q i {p : ℝ≥0∞}, p ≠ 0 →
      oPE tosses fun n ω => ENNReal.ofReal (c n) * errNorm tosses (fun i ω => ω i) plrX (plrLhat (twoStudy E j) q)
        (fun _ => twoTheta j * 3 + twoG j) p i n ω :=
    fun hc q i p hp => by
      have := (twoStudy E j).mean_rate hs hL "ml_l" (measurable_coin twoY) by' hc.1 hc.2 q i hp
      rwa [twoY_mean j] at this
  have rm : ∀ {c : ℕ → ℝ}, (∀ n, 0 ≤ c n) ∧ Tendsto (fun n => c n ^ 2 / n) atTop (𝓝 0) → ∀ q i {p : ℝ≥0∞}, p ≠ 0 →
      oPE tosses fun n ω => ENNReal.ofReal (c n) * errNorm tosses (fun i ω => ω i) plrX (plrMhat (twoStudy E j) q) (fun _ => 3) p i n ω :=
    fun hc q i p hp => by
      have := (twoStudy E j).mean_rate hs hL "ml_m" (measurable_coin (twoD j)) (bd j) hc.1 hc.2 q i hp
      rwa [twoD_mean] at this
  refine ⟨fun _ => meanL_meas _, fun _ => meanL_meas _, fun q j => ?_, fun q j => ?_, fun q j => ?_⟩
  · simpa using rl one_rate q j (p := 4) (by norm_num)
  · simpa using rm one_rate q j (p := 4) (by norm_num)
  · have h1 := rm root_rate q j (p := 2) (by norm_num)
    have h2 := rl root_rate q j (p := 2) (by norm_num)
    refine (h1.mul (h1.add h2)).mono fun n ω => le_of_eq ?_
    have e : ENNReal.ofReal (Real.sqrt n) = ENNReal.ofReal (Real.sqrt (Real.sqrt n)) * ENNReal.ofReal (Real.sqrt (Real.sqrt n)) := by
      rw [← ENNReal.ofReal_mul (Real.sqrt_nonneg _), Real.mul_self_sqrt (Real.sqrt_nonneg _)]
    rw [e]
    ring

theorem two_not_binary {n : ℕ} (hn : 0 < n) (ω : ℕ → Fin 3 → Bool) (j : Fin 2) : ¬ ZeroOne ((twoFrame n ω).col (twoNames j)) := by
  intro h
  have h' := h ⟨0, hn⟩
  rw [two_holds.treatment j n ω ⟨0, hn⟩] at h'
  unfold twoD sgn at h'
  rcases h' with h' | h' <;> have h' := Cell.num.inj h' <;> split_ifs at h' <;> norm_num at h'

/-- The model with both treatments. -/
noncomputable def twoObj (n : ℕ) (ω : ℕ → Fin 3 → Bool) : LinState n ℕ :=
  createdObj (plrSpec (plrMean n)) (twoData n ω) 2 3 (plainDraws n)

theorem two_many (E : Ext) : PlrManyLaw (E := E) (k := plrMean) two_holds tosses_iid le_rfl (r := 3) (by norm_num) (fun _ => rfl)
    (w := plainDraws) (fun _ _ _ => two_pos) (a := {}) (fun _ n m => plainArgs _ _ m) rfl twoTheta (fun j _ => twoG j) (fun _ _ => 3) where
  law := fun j => by rw [tosses_law]; exact two_law j
  relevant := fun j => by
    rw [tosses_law]
    simp [twoD_resid, sgn_sq]
  noise := fun j => by
    rw [tosses_law]
    simp only [two_resid, twoD_resid, mul_pow, sgn_sq, mul_one]
    fin_cases j <;> simp [twoTheta, Fin.rev]
  rates := fun j => two_rates E j

/-- The hypotheses of `C79_plr_treatments` and `C84_plr_treatments` are met: the coefficients are asymptotically normal around 2 and 1, and
the joint intervals cover both. -/
example (E : Ext) {B : ℕ → ℕ} (hB : Tendsto B atTop atTop) {l : ℝ} (h0 : 0 < l) (h1 : l < 1) :
    (∀ j : Fin 2, AsympValidAt E tosses (fun n ω => (fit (twoFrame n ω) (plrSpec (plrMean n)) (twoObj n ω) {}).1) j (![2, 1] j) (![1, 2] j)) ∧
    ProbTends (tosses.prod normalDraws) (fun n => {z | ∃ cis,
      jointCis E (fit (twoFrame n z.1) (plrSpec (plrMean n)) (twoObj n z.1) {}).1 (B n) z.2 l = .ok (.cis cis) ∧ Covers cis ![2, 1]}) l := by
  have hobj : ∀ᶠ n in atTop, ∀ ω, initModel (plrSpec (plrMean n)) (twoData n ω) 0 (.int (2 : ℕ)) (.int (3 : ℕ)) (.bool true) (plainDraws n) =
      .ok (twoObj n ω) := by
    filter_upwards [eventually_ge_atTop 2] with n hn ω
    exact createdObj_spec _ rfl _ le_rfl (by norm_num) (fun _ => hn) _
  have hb : ∀ᶠ n in atTop, ∀ ω j, ¬ ZeroOne ((twoFrame n ω).col (twoNames j)) := by
    filter_upwards [eventually_gt_atTop 0] with n hn ω j
    exact two_not_binary hn ω j
  refine ⟨fun j => ?_, C84_plr_treatments (st := fun _ _ => 0) _ _ _ _ _ _ _ _ hobj two_pos (fun _ => rfl) (fun _ => rfl) hb (two_many E) hB h0 h1⟩
  have h := C79_plr_treatments (st := fun _ _ => 0) _ _ _ _ _ _ _ _ hobj two_pos (fun _ => rfl) (fun _ => rfl) hb (two_many E) j
  have e : plrManySd tosses (fun i (ω : ℕ → Fin 3 → Bool) => ω i) twoY twoD (fun _ => plrX) twoTheta (fun j _ => twoG j) (fun _ _ => 3) j =
      ![(1 : ℝ), 2] j := by
    unfold plrManySd
    rw [tosses_law]
    simp only [two_resid, twoD_resid, mul_pow, sgn_sq, mul_one]
    fin_cases j <;> simp [twoTheta, Fin.rev]
  rw [e] at h
  exact h

/-- The hypotheses of `C85_separate` are met, whatever the sample: the model with both treatments, and the models created from the
data with one of them alone, with the same draws. -/
example (E : Ext) {n : ℕ} (hn : 2 ≤ n) (ω : ℕ → Fin 3 → Bool) (j : Fin 2) :
    let one : LinState n ℕ := createdObj (plrSpec (plrMean n)) (aloneData (twoFrame n ω) (twoData n ω) (twoNames j)) 2 3 (plainDraws n)
    SeveralClass (plrSpec (plrMean n)) ∧ Shaped (twoObj n ω) ∧ Shaped one ∧ Alone (twoFrame n ω) (twoObj n ω) one (twoNames j) ∧
      (twoObj n ω).data.d[(j : ℕ)]? = some (twoNames j) ∧ (fit (twoFrame n ω) (plrSpec (plrMean n)) (twoObj n ω) {}).2 = .ok () ∧
      (fit (twoFrame n ω) (plrSpec (plrMean n)) one {}).2 = .ok () := by
  intro one
  have h1 : initModel (plrSpec (plrMean n)) (twoData n ω) 0 (.int (2 : ℕ)) (.int (3 : ℕ)) (.bool true) (plainDraws n) = .ok (twoObj n ω) :=
    createdObj_spec _ rfl _ le_rfl (by norm_num) (fun _ => hn) _
  have h2 : initModel (plrSpec (plrMean n)) (aloneData (twoFrame n ω) (twoData n ω) (twoNames j)) 0 (.int (2 : ℕ)) (.int (3 : ℕ)) (.bool true)
      (plainDraws n) = .ok one := createdObj_spec _ rfl _ le_rfl (by norm_num) (fun _ => hn) _
  have hw : ∀ K : ℤ, (PyVal.int (2 : ℕ)).asInt = some K → ∀ r i, ((plainDraws n).assign r i : ℤ) < K := fun K hK q i => by
    obtain rfl : ((2 : ℕ) : ℤ) = K := Option.some.inj hK
    exact two_pos
  have hR : ReachedFrom E (twoFrame n ω) (plrSpec (plrMean n)) (twoData n ω) (twoObj n ω) := ⟨0, _, _, _, _, _, [], h1, hw, trivial, rfl⟩
  have hR' : Reached E (twoFrame n ω) (plrSpec (plrMean n)) (aloneData (twoFrame n ω) (twoData n ω) (twoNames j)) (twoNames j) one :=
    ⟨rfl, 0, _, _, _, _, _, [], h2, hw, trivial, rfl⟩
  have hbin : lookupKey (twoNames j) (twoData n ω).binTreats = some false := by
    rw [(two_fresh n ω).binTreat (two_holds.mem j n ω)]
    congr 1
    have := two_not_binary (by omega : 0 < n) ω j
    rw [← isBinaryCol_iff] at this
    simpa using this
  refine ⟨.plr _, (hR.ready rfl).1.shaped, (hR'.ready rfl).1.shaped, created_alone rfl rfl (two_holds.mem j n ω) le_rfl hn h1 h2, ?_, ?_, ?_⟩
  · rw [(created_state rfl rfl le_rfl hn h1).1]
    fin_cases j <;> rfl
  · refine C63_plr_many rfl (by omega) (two_fresh n ω) hR (created_kfold rfl rfl le_rfl hn h1).1 (fun _ _ _ _ h => by cases h)
      ⟨.inl rfl, ⟨true, rfl⟩, ⟨false, rfl⟩, .inl rfl⟩ fun tv ht hz => ?_
    have ht' : tv ∈ List.ofFn twoNames := ht
    obtain ⟨i, rfl⟩ := List.mem_ofFn.1 ht'
    exact absurd hz (two_not_binary (by omega) ω i)
  · refine C63_plr rfl rfl ?_ hR' (created_kfold rfl rfl le_rfl hn h2).1 (plainArgs _ _ _)
    show lookupKey (twoNames j) (activeData (twoFrame n ω) (twoData n ω) (twoNames j)).binTreats = _
    rw [(activeData_same _ _ _).roles]
    exact hbin

end DML
