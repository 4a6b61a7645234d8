import Verif.JointTreatProps
import Verif.FitOkManyProps
import Verif.CreatedObj

/-!
# PLR with several treatments in large samples (C79, C84)

The objects are created from a data object with several treatments, with drawn folds, and fitted.  The conditions are those of C79
for each treatment alone, the other treatments being among the covariates unless `use_other_treat_as_covariate` is false.
-/

namespace DML

open MeasureTheory ProbabilityTheory Filter Topology Finset
open scoped ENNReal

variable {n : ℕ} {Q : Type}

/-- The data object for the treatment `tv` alone: its covariates are those that `set_x_d` selects for `tv`
(/repo/doubleml/double_ml_data.py:651-662). -/
def aloneData (F : Frame n) (D : DataState n) (tv : String) : DataState n :=
  { activeData F D tv with
    d := [tv]
    x := xdList D tv }

/-- The model created with the treatment alone is the model with all treatments, restricted to this treatment. -/
theorem created_alone {sp : LinSpec n Q} (hv : sp.vars = none) (hst : sp.stratified = false) {F : Frame n} {D : DataState n} {tv : String}
    (ht : tv ∈ D.d) {st st' : ℝ} {K r : ℕ} (hK : 2 ≤ K) (hn : K ≤ n) {w : Draws n} {s s' : LinState n Q}
    (h : initModel sp D st (.int K) (.int r) (.bool true) w = .ok s)
    (h' : initModel sp (aloneData F D tv) st' (.int K) (.int r) (.bool true) w = .ok s') : Alone F s s' tv := by
  obtain ⟨a1, a2⟩ := created_kfold hv hst hK hn h
  obtain ⟨b1, b2⟩ := created_kfold hv hst hK hn h'
  obtain ⟨a3, a4, a5, a6⟩ := created_state hv hst hK hn h
  obtain ⟨b3, b4, b5, b6⟩ := created_state hv hst hK hn h'
  refine ⟨by rw [b3]; rfl, ?_, ?_, by rw [a1, b1], by rw [a4, b4], by rw [a5, b5], by rw [a6, b6], fun l => ?_⟩
  · rw [a3, b3]
    exact ⟨rfl, rfl, rfl, rfl, rfl, rfl⟩
  · rw [a3, b3]
    show (activeData F D tv).cv = _
    rw [(activeData_same F D tv).roles]
  · rw [a2, b2]
    unfold initParams
    have : tv ∈ (aloneData F D tv).d := List.mem_singleton.2 rfl
    simp only [ht, this, and_true]

variable {Ω S 𝒳 : Type*} {mΩ : MeasurableSpace Ω} [MeasurableSpace S] [MeasurableSpace 𝒳] {E : Ext} {P : Measure Ω} {W : ℕ → Ω → S}
  {p r K : ℕ} {tvs : Fin p → String} {y : S → ℝ} {d : Fin p → S → ℝ} {ξ : Fin p → S → 𝒳} {enc : Fin p → 𝒳 → List Cell}

/-- The data objects `D n ω` are created from the frames `F n ω`, which hold the first `n` observations: outcome `y`, treatments `d j`
called `tvs j`, and `ξ j` the covariates used for treatment number `j`. -/
structure HoldsMany (W : ℕ → Ω → S) (tvs : Fin p → String) (y : S → ℝ) (d : Fin p → S → ℝ) (ξ : Fin p → S → 𝒳)
    (enc : Fin p → 𝒳 → List Cell) (F : ∀ n, Ω → Frame n) (D : ∀ n, Ω → DataState n) : Prop where
  fresh : ∀ n ω, FreshData (F n ω) (D n ω)
  treats : ∀ n ω, (D n ω).d = List.ofFn tvs
  outcome : ∀ n ω i, (F n ω).col (D n ω).y i = Cell.num (y (W i ω))
  treatment : ∀ j n ω i, (F n ω).col (tvs j) i = Cell.num (d j (W i ω))
  covariates : ∀ j n ω i, rowX (activeData (F n ω) (D n ω) (tvs j)) i = enc j (ξ j (W i ω))
  measY : Measurable y
  measD : ∀ j, Measurable (d j)
  measX : ∀ j, Measurable (ξ j)

theorem HoldsMany.mem {F : ∀ n, Ω → Frame n} {D : ∀ n, Ω → DataState n} (h : HoldsMany W tvs y d ξ enc F D) (j : Fin p) (n : ℕ) (ω : Ω) :
    tvs j ∈ (D n ω).d := by
  rw [h.treats n ω]
  exact List.mem_ofFn.2 ⟨j, rfl⟩

theorem HoldsMany.alone {F : ∀ n, Ω → Frame n} {D : ∀ n, Ω → DataState n} (h : HoldsMany W tvs y d ξ enc F D) (j : Fin p) :
    Holds W (tvs j) y (d j) (ξ j) (enc j) fun n ω => aloneData (F n ω) (D n ω) (tvs j) where
  treats := fun _ _ => rfl
  outcome := fun n ω i => by
    show (activeData (F n ω) (D n ω) (tvs j)).yv i = _
    rw [(activeData_same _ _ _).roles]
    show (D n ω).yv i = _
    rw [(h.fresh n ω).roles.2.2.1]
    exact h.outcome n ω i
  treatment := fun n ω i => by
    show (activeData (F n ω) (D n ω) (tvs j)).dv i = _
    rw [(h.fresh n ω).dv (h.mem j n ω)]
    exact h.treatment j n ω i
  covariates := fun n ω i => h.covariates j n ω i
  measY := h.measY
  measD := h.measD j
  measX := h.measX j

/-- The fitted models with treatment number `j` alone. -/
noncomputable def HoldsMany.study {sp : ∀ n, LinSpec n Q} {F : ∀ n, Ω → Frame n} {D : ∀ n, Ω → DataState n}
    (h : HoldsMany W tvs y d ξ enc F D) (E : Ext) (hW : Iid P W) (hK : 2 ≤ K) (hr : 0 < r) (hv : ∀ n, (sp n).vars = none)
    (hst : ∀ n, (sp n).stratified = false) {w : ∀ n, Draws n} (hw : ∀ n q i, (w n).assign q i < K) {a : FitArgs}
    (ha : ∀ j n m, ValidArgs (sp n) (tvs j) m a) (hx : a.ext = .none) (j : Fin p) :
    Study E P W r K sp (tvs j) y (d j) (ξ j) (enc j) :=
  Study.created E hW hK hr hv hst F (h.alone j) (st := fun _ _ => 0) hw
    (obj := fun n ω => createdObj (sp n) (aloneData (F n ω) (D n ω) (tvs j)) K r (w n))
    (by
      filter_upwards [eventually_ge_atTop K] with n hn ω
      exact createdObj_spec (sp n) (hv n) _ hK hr (fun _ => hn) (w n))
    (ha j) hx

section

variable {k : ∀ n, PlrClass n Q} {F : ∀ n, Ω → Frame n} {D : ∀ n, Ω → DataState n} (H : HoldsMany W tvs y d ξ enc F D) (hW : Iid P W)
  (hK : 2 ≤ K) (hr : 0 < r) (hv : ∀ n, (k n).vars = none) {w : ∀ n, Draws n} (hw : ∀ n q i, (w n).assign q i < K) {a : FitArgs}
  (ha : ∀ j n m, ValidArgs (plrSpec (k n)) (tvs j) m a) (hx : a.ext = .none)

/-- The models with several treatments and those with one alone can be fitted. -/
theorem HoldsMany.together {st : ℕ → Ω → ℝ} {obj : ∀ n, Ω → LinState n Q}
    (hobj : ∀ᶠ n in atTop, ∀ ω, initModel (plrSpec (k n)) (D n ω) (st n ω) (.int K) (.int r) (.bool true) (w n) = .ok (obj n ω))
    (hp : 0 < p) (hcl : ∀ n, (k n).mClassifier = false) (hbin : ∀ᶠ n in atTop, ∀ ω j, ¬ ZeroOne ((F n ω).col (tvs j))) :
    Together P r F (fun n => plrSpec (k n)) tvs obj (fun j => (H.study E hW hK hr hv (fun _ => rfl) hw ha hx j).obj) a where
  several := fun n => .plr (k n)
  vars := hv
  shaped := by
    filter_upwards [hobj, eventually_ge_atTop K, eventually_all.2 fun j => (H.study E hW hK hr hv (fun _ => rfl) hw ha hx j).reached]
      with n h hn h' ω
    have hR : ReachedFrom E (F n ω) (plrSpec (k n)) (D n ω) (obj n ω) :=
      ⟨st n ω, .int K, .int r, .bool true, w n, obj n ω, [], h ω, fun K' hK' q i => by
        obtain rfl : (K : ℤ) = K' := Option.some.inj hK'
        exact_mod_cast hw n q i, trivial, rfl⟩
    obtain ⟨e1, -, -, e4⟩ := created_state (hv n) rfl hK hn (h ω)
    refine ⟨(hR.ready (hv n)).1.shaped, e4, by rw [e1]; exact H.treats n ω, fun j => ⟨((h' j ω).ready (hv n)).1.shaped, ?_⟩⟩
    exact created_alone (hv n) rfl (H.mem j n ω) hK hn (h ω) (createdObj_spec (plrSpec (k n)) (hv n) _ hK hr (fun _ => hn) (w n))
  fits := by
    refine ⟨fun _ => ∅, by simp, ?_⟩
    filter_upwards [hobj, eventually_ge_atTop K, eventually_all.2 fun j => (H.study E hW hK hr hv (fun _ => rfl) hw ha hx j).reached,
      eventually_all.2 fun j => (H.study E hW hK hr hv (fun _ => rfl) hw ha hx j).smpls, hbin] with n h hn h' h'' hb ω _
    have hR : ReachedFrom E (F n ω) (plrSpec (k n)) (D n ω) (obj n ω) :=
      ⟨st n ω, .int K, .int r, .bool true, w n, obj n ω, [], h ω, fun K' hK' q i => by
        obtain rfl : (K : ℤ) = K' := Option.some.inj hK'
        exact_mod_cast hw n q i, trivial, rfl⟩
    have hd : ∀ tv ∈ (D n ω).d, ∃ j, tvs j = tv := fun tv ht => by
      rw [H.treats n ω] at ht
      exact List.mem_ofFn.1 ht
    have hA := ha ⟨0, hp⟩ n 0
    refine ⟨C63_plr_many (hv n) (by omega) (H.fresh n ω) hR (created_kfold (hv n) rfl hK hn (h ω)).1 (fun tv _ S _ hc => ?_)
      ⟨hA.jobs, hA.preds, hA.models, .inl hx⟩ (fun tv ht hz => ?_), fun j => ?_⟩
    · rw [hcl n] at hc
      cases hc
    · obtain ⟨j, rfl⟩ := hd tv ht
      exact absurd hz (hb ω j)
    · refine C63_plr (E := E) (tv := tvs j) (D := aloneData (F n ω) (D n ω) (tvs j)) (hv n) (hcl n) ?_ (h' j ω) (h'' j ω) (ha j n _)
      show lookupKey (tvs j) (activeData (F n ω) (D n ω) (tvs j)).binTreats = _
      rw [(activeData_same _ _ _).roles]
      show lookupKey (tvs j) (D n ω).binTreats = _
      rw [(H.fresh n ω).binTreat (H.mem j n ω)]
      congr 1
      have := hb ω j
      rw [← isBinaryCol_iff] at this
      simpa using this

variable {θ : Fin p → ℝ} {g m : Fin p → 𝒳 → ℝ}

/-- The conditions of C79 on the data-generating process and the learners, for each treatment. -/
structure PlrManyLaw (θ : Fin p → ℝ) (g m : Fin p → 𝒳 → ℝ) : Prop where
  law : ∀ j, PlrLaw (P.map (W 0)) y (d j) (ξ j) (θ j) (g j) (m j) 4
  relevant : ∀ j, ∫ u, (d j u - m j (ξ j u)) ^ 2 ∂(P.map (W 0)) ≠ 0
  noise : ∀ j, ∫ u, ((y u - θ j * d j u - g j (ξ j u)) * (d j u - m j (ξ j u))) ^ 2 ∂(P.map (W 0)) ≠ 0
  rates : ∀ j, PlrRates (H.study E hW hK hr hv (fun _ => rfl) hw ha hx j) (fun x => θ j * m j x + g j x) (m j)

/-- The asymptotic standard deviation for treatment number `j`. -/
noncomputable def plrManySd (P : Measure Ω) (W : ℕ → Ω → S) (y : S → ℝ) (d : Fin p → S → ℝ) (ξ : Fin p → S → 𝒳) (θ : Fin p → ℝ)
    (g m : Fin p → 𝒳 → ℝ) (j : Fin p) : ℝ :=
  Real.sqrt (∫ u, ((y u - θ j * d j u - g j (ξ j u)) * (d j u - m j (ξ j u))) ^ 2 ∂(P.map (W 0))) /
    ∫ u, (d j u - m j (ξ j u)) ^ 2 ∂(P.map (W 0))

variable [IsProbabilityMeasure P] {st : ℕ → Ω → ℝ} {obj : ∀ n, Ω → LinState n Q}
  (hobj : ∀ᶠ n in atTop, ∀ ω, initModel (plrSpec (k n)) (D n ω) (st n ω) (.int K) (.int r) (.bool true) (w n) = .ok (obj n ω))
  (hp : 0 < p) (hiv : ∀ n, (k n).iv = false) (hcl : ∀ n, (k n).mClassifier = false)
  (hbin : ∀ᶠ n in atTop, ∀ ω j, ¬ ZeroOne ((F n ω).col (tvs j)))
  (hL : PlrManyLaw (E := E) H hW hK hr hv hw ha hx θ g m)
include hiv hcl hbin hL

theorem plr_many_one (j : Fin p) : AsympValid E P W r
    (fun n ω => (fit (F n ω) (plrSpec (k n)) ((H.study E hW hK hr hv (fun _ => rfl) hw ha hx j).obj n ω) a).1) (θ j)
    (plrManySd P W y d ξ θ g m j) := by
  refine C79_plr (H.study E hW hK hr hv (fun _ => rfl) hw ha hx j) hiv hcl hv ?_ (hL.law j) (hL.relevant j) (hL.noise j) (hL.rates j)
  filter_upwards [hbin] with n hb ω
  show lookupKey (tvs j) (activeData (F n ω) (D n ω) (tvs j)).binTreats = _
  rw [(activeData_same _ _ _).roles]
  show lookupKey (tvs j) (D n ω).binTreats = _
  rw [(H.fresh n ω).binTreat (H.mem j n ω)]
  congr 1
  have := hb ω j
  rw [← isBinaryCol_iff] at this
  simpa using this

include hobj hp

/-- **C79, PLR with several treatments** and the score `partialling out`: the results for every treatment have the large-sample
properties. -/
theorem C79_plr_treatments (j : Fin p) : AsympValidAt E P (fun n ω => (fit (F n ω) (plrSpec (k n)) (obj n ω) a).1) j (θ j)
    (plrManySd P W y d ξ θ g m j) :=
  C79_treatments (H.together (E := E) hW hK hr hv hw ha hx hobj hp hcl hbin) (plr_many_one H hW hK hr hv hw ha hx hiv hcl hbin hL j)

/-- **C84, PLR with several treatments** and the score `partialling out`: the joint intervals cover the parameters of all treatments
with probability tending to the level. -/
theorem C84_plr_treatments {B : ℕ → ℕ} (hB : Tendsto B atTop atTop) {l : ℝ} (h0 : 0 < l) (h1 : l < 1) :
    ProbTends (P.prod normalDraws) (fun n => {z | ∃ cis,
      jointCis E (fit (F n z.1) (plrSpec (k n)) (obj n z.1) a).1 (B n) z.2 l = .ok (.cis cis) ∧ Covers cis θ}) l :=
  C84_treatments hW hr hp (H.together (E := E) hW hK hr hv hw ha hx hobj hp hcl hbin)
    (plr_many_one H hW hK hr hv hw ha hx hiv hcl hbin hL) hB h0 h1

end

end DML
