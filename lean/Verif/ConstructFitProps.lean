import Verif.ConstructProps

/-!
# C64: created models can be fitted; what the constructors let pass

Compositions of the characterisations of the constructors with the theorems on fitting (C63), and unsuitable data
that the constructors accept.
-/

namespace DML

variable {n : ℕ} {P : Type}

/-! ## Created models can be fitted -/

/-- The fold numbers that are drawn are smaller than the number of folds. -/
def FoldsDrawn (b : Resampling n) (w : Draws n) : Prop := ∀ K, b.nFolds.asInt = some K → ∀ r i, (w.assign r i : ℤ) < K

/-- In every repetition there are observations with the values zero and one in two different folds each, which is what
stratification gives as soon as there are two observations of each kind. -/
def Spread (y : Fin n → ℝ) (w : Draws n) : Prop :=
  ∀ r (v : ℝ), v = 0 ∨ v = 1 → ∃ i j, y i = v ∧ y j = v ∧ w.assign r i ≠ w.assign r j

theorem created_reached (E : Ext) {F : Frame n} {sp : LinSpec n P} {D : DataState n} {tv : String} (hd : D.d = [tv]) {b : Resampling n}
    {w : Draws n} {s : LinState n P} (h : initModel sp D 0 b.nFolds b.nRep b.draw w = .ok s) (hw : FoldsDrawn b w) :
    Reached E F sp D tv s := ⟨hd, 0, _, _, _, w, s, [], h, hw, trivial, rfl⟩

theorem created_split {sp : LinSpec n P} (hv : sp.vars = none) (hst : sp.stratified = true) {D : DataState n} {b : Resampling n}
    (hdraw : b.draw = .bool true) {w : Draws n} {s : LinState n P} (h : initModel sp D 0 b.nFolds b.nRep b.draw w = .ok s) :
    s.smpls = some ((List.range s.nRep).map fun (r : ℕ) => assignFolds s.nFolds (w.assign r)) := by
  rw [hdraw, initModel_eq] at h
  obtain ⟨_, -, h⟩ := bind_ok h
  obtain ⟨K, hK, h⟩ := bind_ok h
  obtain ⟨R, hR, h⟩ := bind_ok h
  obtain ⟨dr, hb, h⟩ := bind_ok h
  obtain rfl : true = dr := PyVal.bool.inj ((checkBool_ok_iff _ _).1 hb)
  unfold firstDraw at h
  rw [if_pos rfl] at h
  unfold drawSampleSplitting drawnSplit at h
  rw [hv] at h
  dsimp only at h
  rw [hst, if_pos rfl] at h
  by_cases h2 : (rawModel sp D 0 K R).nFolds < 2
  · rw [if_pos h2] at h
    cases h
  · rw [if_neg h2] at h
    obtain rfl := Except.ok.inj h
    rfl

theorem spread_every {sp : LinSpec n P} (hv : sp.vars = none) (hst : sp.stratified = true) {D : DataState n} {b : Resampling n}
    (hdraw : b.draw = .bool true) {w : Draws n} {s : LinState n P} (h : initModel sp D 0 b.nFolds b.nRep b.draw w = .ok s) :
    ∃ L, s.smpls = some L ∧ L.length = s.nRep ∧ ∀ y : Fin n → ℝ, Spread y w → ∀ S ∈ L, EveryFold S (fun _ => True) y := by
  refine ⟨_, created_split hv hst hdraw h, by simp, fun y hy S hS => ?_⟩
  obtain ⟨r, -, rfl⟩ := List.mem_map.1 hS
  exact C63_stratified (hy r)

theorem Spread.binary {y : Fin n → ℝ} {w : Draws n} (h : Spread y w) (hz : ∀ i, y i = 0 ∨ y i = 1) : BinaryTarget y where
  values := hz
  zero := by
    obtain ⟨i, -, hi, -⟩ := h 0 0 (Or.inl rfl)
    exact ⟨i, hi⟩
  one := by
    obtain ⟨i, -, hi, -⟩ := h 0 1 (Or.inr rfl)
    exact ⟨i, hi⟩

theorem ZeroOne.nums {c : Fin n → Cell} (h : ZeroOne c) (i : Fin n) : nums c i = 0 ∨ nums c i = 1 := by
  unfold DML.nums
  rcases h i with h | h <;> rw [h]
  · exact Or.inl rfl
  · exact Or.inr rfl

theorem weights_at {w : WArg} (hw : w.Dict) {score : WScore} {nRep : ℕ} {r : StoredWeights}
    (h : initWeights w score n nRep = .ok r) (q : ℕ) (hq : q < nRep) :
    ∃ v : (Fin n → ℝ) × (Fin n → ℝ), r.at q = .ok v := by
  have hg := (initWeights_ok_iff w hw score n nRep).1 ⟨r, h⟩
  obtain ⟨_, -, h'⟩ := bind_ok h
  clear h
  cases hg with
  | default s => obtain rfl := Except.ok.inj h'; exact ⟨_, rfl⟩
  | ate a ha => obtain rfl := Except.ok.inj h'; exact ⟨_, rfl⟩
  | atte a ha hb => obtain rfl := Except.ok.inj h'; exact ⟨_, rfl⟩
  | dict kv a b hp ha hb =>
    obtain ⟨x, hx, h⟩ := bind_ok h'
    clear h'
    obtain ⟨y, hy, h'⟩ := bind_ok h
    clear h
    obtain rfl := Except.ok.inj h'
    obtain ⟨v, hv, hy⟩ := bind_ok hy
    rw [(wLookup_of_perm hp).2] at hv
    obtain rfl := Except.ok.inj hv
    obtain rfl := Except.ok.inj hy
    unfold StoredWeights.at
    dsimp only
    rw [if_pos (by rw [hb.shape]; exact hq)]
    exact ⟨_, rfl⟩

theorem FreshData.treat {F : Frame n} {D : DataState n} (h : FreshData F D) {d : String} (hd : D.d = [d]) : D.dv = F.col d := by
  obtain ⟨d', hd', hv, -⟩ := h.first
  rw [hd] at hd'
  obtain rfl := Option.some.inj hd'
  exact hv

theorem FreshData.notBinOut {F : Frame n} {D : DataState n} (h : FreshData F D) (hy : ¬ ZeroOne (F.col D.y)) : D.binOut = false := by
  rw [← h.binOut] at hy
  exact Bool.eq_false_iff.2 hy

/-- **C64, IRM: what is created can be fitted.**  Once the constructor accepts data (not clustered, with a non-binary
outcome) and draws a split, the fit succeeds for every compliant learner. -/
theorem C64_irm_fit (E : Ext) {F : Frame n} {D : DataState n} (hD : FreshData F D) (hcl : D.cluster = none)
    (hy : ¬ ZeroOne (F.col D.y)) (read : List (Fin n → Cell) → ClusterVars n) {a : IrmArgs P} (hw : a.weights.Dict)
    (hg : a.ml_g.isClassifier = false) (hm : a.ml_m.run.Compliant) {b : Resampling n} (hdraw : b.draw = .bool true)
    (hf : FoldsDrawn b b.second) {d : String} (hd : D.d = [d]) (hs : Spread (nums (F.col d)) b.second)
    {k : IrmClass n P} {s : LinState n P} (h : newIrm read a D b = .ok (k, s)) {args : FitArgs}
    (ha : ValidArgs (irmSpec k) d s.nRep args) : (fit F (irmSpec k) s args).2 = .ok () := by
  obtain ⟨-, hz⟩ := (C64_irm hD read a hw b).1 ⟨_, h⟩
  obtain ⟨k1, k2, k3, -, -, -, -, k4, hc⟩ := C64_irm_object read a hw b h
  have hv : k.vars = none := k4.1 hcl
  unfold newIrm at h
  obtain ⟨s0, h0, h⟩ := bind_ok h
  have hc0 := initModel_created h0
  iterate 9 obtain ⟨_, -, h⟩ := bind_ok h
  obtain ⟨w, hwt, h⟩ := bind_ok h
  obtain ⟨s1, hs1, h⟩ := bind_ok h
  cases h
  obtain ⟨L, hL, hlen, hev⟩ := spread_every hv rfl hdraw hs1
  have hdv := hD.treat hd
  obtain ⟨d', hd', hz⟩ := hz.treat
  obtain rfl : d' = d := by rw [hd'] at hd; exact (List.cons.inj hd).1
  refine C63_irm (E := E) hv (k3.trans hg) (by rw [k2]; exact hm) (hD.notBinOut hy) ?_ (created_reached E hd hs1 hf) hL ?_ ?_ ha
  · rw [hdv]
    exact hs.binary hz.nums
  · rw [hdv]
    exact hev _ hs
  · intro q hq
    rw [hlen, ← initModel_nRep hc0 hs1] at hq
    exact weights_at hw hwt q hq

/-- **C64, APO: what is created can be fitted**, provided every training set contains observations at the level and at
other levels. -/
theorem C64_apo_fit (E : Ext) {F : Frame n} {D : DataState n} (hD : FreshData F D) (hcl : D.cluster = none)
    (hy : ¬ ZeroOne (F.col D.y)) (read : List (Fin n → Cell) → ClusterVars n) {a : ApoArgs P} (hw : a.weights.Dict)
    (hg : a.ml_g.isClassifier = false) (hm : a.ml_m.run.Compliant) {b : Resampling n} (hdraw : b.draw = .bool true)
    (hf : FoldsDrawn b b.second) {d : String} (hd : D.d = [d]) (hs : Spread (isLevel a.level (nums (F.col d))) b.second)
    {k : ApoClass n P} {s : LinState n P} (h : newApo read a D b = .ok (k, s)) {args : FitArgs}
    (ha : ValidArgs (apoSpec k) d s.nRep args) : (fit F (apoSpec k) s args).2 = .ok () := by
  obtain ⟨k1, k2, k3, kl, -, -, -, k4, hc⟩ := C64_apo_object read a hw b h
  have hv : k.vars = none := k4.1 hcl
  unfold newApo at h
  obtain ⟨s0, h0, h⟩ := bind_ok h
  have hc0 := initModel_created h0
  iterate 10 obtain ⟨_, -, h⟩ := bind_ok h
  obtain ⟨w, hwt, h⟩ := bind_ok h
  obtain ⟨s1, hs1, h⟩ := bind_ok h
  cases h
  obtain ⟨L, hL, hlen, hev⟩ := spread_every hv rfl hdraw hs1
  have hdv := hD.treat hd
  refine C63_apo (E := E) hv (k3.trans hg) (by rw [k2]; exact hm) (hD.notBinOut hy) ?_ (created_reached E hd hs1 hf) hL ?_ ?_ ha
  · rw [hdv, kl]
    exact hs.binary fun i => by unfold isLevel; split_ifs; exacts [Or.inr rfl, Or.inl rfl]
  · rw [hdv, kl]
    exact hev _ hs
  · intro q hq
    rw [hlen, ← initModel_nRep hc0 hs1] at hq
    exact weights_at hw hwt q hq

/-- **C64, DID: what is created can be fitted.** -/
theorem C64_did_fit (E : Ext) {F : Frame n} {D : DataState n} (hD : FreshData F D) (hcl : D.cluster = none)
    (hy : ¬ ZeroOne (F.col D.y)) (read : List (Fin n → Cell) → ClusterVars n) {a : DidArgs P}
    (hg : a.ml_g.isClassifier = false) {m : LearnerObj P} (ham : a.ml_m = some m) (hm : m.run.Compliant) {b : Resampling n}
    (hdraw : b.draw = .bool true) (hf : FoldsDrawn b b.second) {d : String} (hd : D.d = [d])
    (hs : Spread (nums (F.col d)) b.second) {k : DidClass n P} {s : LinState n P} (h : newDid read a D b = .ok (k, s))
    {args : FitArgs} (ha : ValidArgs (didSpec k) d s.nRep args) : (fit F (didSpec k) s args).2 = .ok () := by
  obtain ⟨-, hz⟩ := (C64_did hD read a b).1 ⟨_, h⟩
  obtain ⟨k1, k2, k3, -, -, -, k4, hc⟩ := C64_did_object read a b h
  have hv : k.vars = none := k4.1 hcl
  unfold newDid at h
  obtain ⟨s0, h0, h⟩ := bind_ok h
  iterate 9 obtain ⟨_, -, h⟩ := bind_ok h
  obtain ⟨s1, hs1, h⟩ := bind_ok h
  cases h
  obtain ⟨L, hL, hlen, hev⟩ := spread_every hv rfl hdraw hs1
  have hdv := hD.treat hd
  obtain ⟨d', hd', hz⟩ := hz.treat
  obtain rfl : d' = d := by rw [hd'] at hd; exact (List.cons.inj hd).1
  refine C63_did (E := E) hv (k3.trans hg) (by rw [k2 m ham]; exact hm) (hD.notBinOut hy) ?_ (created_reached E hd hs1 hf) hL ?_ ha
  · rw [hdv]
    exact hs.binary hz.nums
  · rw [hdv]
    exact hev _ hs

/-- **C64, DIDCS: what is created can be fitted.** -/
theorem C64_didCs_fit (E : Ext) {F : Frame n} {D : DataState n} (hD : FreshData F D) (hcl : D.cluster = none)
    (hy : ¬ ZeroOne (F.col D.y)) (read : List (Fin n → Cell) → ClusterVars n) {a : DidArgs P}
    (hg : a.ml_g.isClassifier = false) {m : LearnerObj P} (ham : a.ml_m = some m) (hm : m.run.Compliant) {b : Resampling n}
    (hdraw : b.draw = .bool true) (hf : FoldsDrawn b b.second) {d : String} (hd : D.d = [d])
    (hs : Spread (nums (F.col d)) b.second) {k : DidClass n P} {s : LinState n P} (h : newDidCs read a D b = .ok (k, s))
    {args : FitArgs} (ha : ValidArgs (csSpec k) d s.nRep args) : (fit F (csSpec k) s args).2 = .ok () := by
  obtain ⟨-, hz⟩ := (C64_didCs hD read a b).1 ⟨_, h⟩
  obtain ⟨k1, k2, k3, -, -, -, k4, hc⟩ := C64_didCs_object read a b h
  have hv : k.vars = none := k4.1 hcl
  unfold newDidCs at h
  obtain ⟨s0, h0, h⟩ := bind_ok h
  iterate 10 obtain ⟨_, -, h⟩ := bind_ok h
  obtain ⟨s1, hs1, h⟩ := bind_ok h
  cases h
  obtain ⟨L, hL, hlen, hev⟩ := spread_every hv rfl hdraw hs1
  have hdv := hD.treat hd
  obtain ⟨d', hd', hz'⟩ := hz.treat
  obtain ⟨t, ht, -⟩ := hz.time
  obtain rfl : d' = d := by rw [hd'] at hd; exact (List.cons.inj hd).1
  refine C63_didcs (E := E) hv (k3.trans hg) (by rw [k2 m ham]; exact hm) (hD.notBinOut hy) ?_ ((hD.time _).2 ⟨t, ht, rfl⟩)
    (created_reached E hd hs1 hf) hL ?_ ha
  · rw [hdv]
    exact hs.binary hz'.nums
  · rw [hdv]
    exact hev _ hs

/-- Within the observations where `on` has the value `u`, both values of `y` are in two different folds. -/
def SpreadIn (on : Fin n → ℝ) (u : ℝ) (y : Fin n → ℝ) (w : Draws n) : Prop :=
  ∀ r (v : ℝ), v = 0 ∨ v = 1 → ∃ i j, on i = u ∧ on j = u ∧ y i = v ∧ y j = v ∧ w.assign r i ≠ w.assign r j

theorem SpreadIn.every {on y : Fin n → ℝ} {u : ℝ} {w : Draws n} (h : SpreadIn on u y w) (K r : ℕ) :
    EveryFold (assignFolds K (w.assign r)) (fun i => on i = u) y := by
  have key : ∀ v : ℝ, v = 0 ∨ v = 1 → ∀ f ∈ assignFolds K (w.assign r), ∃ j ∈ f.train, on j = u ∧ y j = v := by
    intro v hv f hf
    obtain ⟨k, hk, rfl⟩ := List.mem_map.1 hf
    obtain ⟨i, j, oi, oj, hi, hj, hij⟩ := h r v hv
    by_cases hik : w.assign r i = k
    · exact ⟨j, by simp; omega, oj, hj⟩
    · exact ⟨i, by simp; omega, oi, hi⟩
  exact fun f hf => ⟨key 0 (Or.inl rfl) f hf, key 1 (Or.inr rfl) f hf⟩

/-- **C64, IIVM: what is created can be fitted.** -/
theorem C64_iivm_fit (E : Ext) {F : Frame n} {D : DataState n} (hD : FreshData F D) (hcl : D.cluster = none)
    (hy : ¬ ZeroOne (F.col D.y)) (read : List (Fin n → Cell) → ClusterVars n) {a : IivmArgs P} (hw : a.subgroups.Dict)
    (hg : a.ml_g.isClassifier = false) (hm : a.ml_m.run.Compliant) (hr : a.ml_r.run.Compliant) {b : Resampling n}
    (hdraw : b.draw = .bool true) (hf : FoldsDrawn b b.second) {d z : String} (hd : D.d = [d]) (hz : D.z = some [z])
    (hs0 : SpreadIn (nums (F.col z)) 0 (nums (F.col d)) b.second) (hs1 : SpreadIn (nums (F.col z)) 1 (nums (F.col d)) b.second)
    {k : IivmClass n P} {s : LinState n P} (h : newIivm read a D b = .ok (k, s)) {args : FitArgs}
    (ha : ValidArgs (iivmSpec k) d s.nRep args) : (fit F (iivmSpec k) s args).2 = .ok () := by
  obtain ⟨-, hS⟩ := (C64_iivm hD read a hw b).1 ⟨_, h⟩
  obtain ⟨k1, k2, k3, k4, -, -, -, k5, hc⟩ := C64_iivm_object read a hw b h
  have hv : k.vars = none := k5.1 hcl
  unfold newIivm at h
  obtain ⟨s0, h0, h⟩ := bind_ok h
  iterate 11 obtain ⟨_, -, h⟩ := bind_ok h
  obtain ⟨s1, hs1', h⟩ := bind_ok h
  cases h
  have hdv := hD.treat hd
  obtain ⟨d', hd', hzd⟩ := hS.treat
  obtain rfl : d' = d := by rw [hd'] at hd; exact (List.cons.inj hd).1
  obtain ⟨z', hz', hzz⟩ := hS.instr
  obtain rfl : z' = z := by rw [hz'] at hz; exact (List.cons.inj (Option.some.inj hz)).1
  have hL := created_split hv rfl hdraw hs1'
  have hsz : Spread (nums (F.col z')) b.second := by
    intro r v hv
    rcases hv with rfl | rfl
    · obtain ⟨i, j, g1, g2, -, -, g3⟩ := hs0 r 0 (Or.inl rfl)
      exact ⟨i, j, g1, g2, g3⟩
    · obtain ⟨i, j, g1, g2, -, -, g3⟩ := hs1 r 0 (Or.inl rfl)
      exact ⟨i, j, g1, g2, g3⟩
  have hsd : Spread (nums (F.col d')) b.second := by
    intro r v hv
    obtain ⟨i, j, -, -, g1, g2, g3⟩ := hs0 r v hv
    exact ⟨i, j, g1, g2, g3⟩
  refine C63_iivm (E := E) hv (k4.trans hg) (by rw [k2]; exact hm) (by rw [k3]; exact hr) (hD.notBinOut hy) ?_
    ((hD.instr _).2 ⟨z', hz, rfl⟩) (hsz.binary hzz.nums) (created_reached E hd hs1' hf) hL ?_ ?_ ?_ ha
  · rw [hdv]
    exact hsd.binary hzd.nums
  · intro S hS
    obtain ⟨r, -, rfl⟩ := List.mem_map.1 hS
    exact C63_stratified (hsz r)
  · intro _ S hS
    obtain ⟨r, -, rfl⟩ := List.mem_map.1 hS
    rw [hdv]
    exact hs0.every _ r
  · intro _ S hS
    obtain ⟨r, -, rfl⟩ := List.mem_map.1 hS
    rw [hdv]
    exact hs1.every _ r

/-- **C64, SSM (missing at random): what is created can be fitted**, provided the treatment and the selection are in fact
binary, which the constructor does not check (`C64_ssm_violated`). -/
theorem C64_ssm_fit (E : Ext) {F : Frame n} {D : DataState n} (hD : FreshData F D) (hcl : D.cluster = none)
    (hy : ¬ ZeroOne (F.col D.y)) (read : List (Fin n → Cell) → ClusterVars n) {a : SsmArgs P}
    (hg : a.ml_g.isClassifier = false) (hm : a.ml_m.run.Compliant) (hp : a.ml_pi.run.Compliant) {b : Resampling n}
    (hdraw : b.draw = .bool true) (hf : FoldsDrawn b b.second) {d c : String} (hd : D.d = [d]) (hsel : D.s = some c)
    (hzd : ZeroOne (F.col d)) (hzs : ZeroOne (F.col c)) (hsd : Spread (nums (F.col d)) b.second)
    (hss : Spread (nums (F.col c)) b.second) {o : Bool} {k : SsmClass n P} {s : LinState n P}
    (h : newSsm read a D b = .ok (o, k, s)) {args : FitArgs}
    (ha : ValidArgs (ssmSpec k) d s.nRep args) : (fit F (ssmSpec k) s args).2 = .ok () := by
  obtain ⟨-, k1, k2, k3, k4, -, -, k5, hc⟩ := C64_ssm_object read a b h
  have hv : k.vars = none := k5.1 hcl
  unfold newSsm at h
  obtain ⟨s0, h0, h⟩ := bind_ok h
  iterate 10 obtain ⟨_, -, h⟩ := bind_ok h
  obtain ⟨s1, hs1', h⟩ := bind_ok h
  cases h
  have hdv := hD.treat hd
  obtain ⟨L, hL, -, hev⟩ := spread_every hv rfl hdraw hs1'
  refine C63_ssm (E := E) hv (k4.trans hg) (by rw [k3]; exact hm) (by rw [k2]; exact hp) (hD.notBinOut hy) ?_
    ((hD.sel _).2 ⟨c, hsel, rfl⟩) (hss.binary hzs.nums) (created_reached E hd hs1' hf) hL ?_ ?_ ha
  · rw [hdv]
    exact hsd.binary hzd.nums
  · rw [hdv]
    exact hev _ hsd
  · exact hev _ hss

theorem created_smpls {sp : LinSpec n P} {D : DataState n} {b : Resampling n} {s : LinState n P} (h : Created sp D b s)
    (hdraw : b.draw = .bool true) : ∃ L, s.smpls = some L := Option.isSome_iff_exists.1 (h.split.2 hdraw)

/-- **C64, PLR: what is created can be fitted** (one treatment that is not binary, a regressor for it). -/
theorem C64_plr_fit (E : Ext) {F : Frame n} {D : DataState n} (hD : FreshData F D) (hcl : D.cluster = none)
    (read : List (Fin n → Cell) → ClusterVars n) {a : PlrArgs P} (hg : a.ml_m.isClassifier = false) {b : Resampling n}
    (hdraw : b.draw = .bool true) (hf : FoldsDrawn b b.first) {d : String} (hd : D.d = [d]) (hzd : ¬ ZeroOne (F.col d))
    {k : PlrClass n P} {s : LinState n P} (h : newPlr read a D b = .ok (k, s)) {args : FitArgs}
    (ha : ValidArgs (plrSpec k) d s.nRep args) : (fit F (plrSpec k) s args).2 = .ok () := by
  obtain ⟨k1, k2, k3, k4, k5, -, k6, hc⟩ := C64_plr_object read a b h
  have hv : k.vars = none := k6.1 hcl
  unfold newPlr at h
  obtain ⟨s0, h0, h⟩ := bind_ok h
  iterate 6 obtain ⟨_, -, h⟩ := bind_ok h
  obtain ⟨s1, hs1', h⟩ := bind_ok h
  cases h
  obtain ⟨L, hL⟩ := created_smpls hc hdraw
  refine C63_plr (E := E) hv (k5.trans hg) ?_ (created_reached E hd hs1' hf) hL ha
  rw [hD.roles.1, hd]
  rw [← isBinaryCol_iff, Bool.not_eq_true] at hzd
  rw [List.map_singleton, hzd]
  unfold lookupKey
  rw [if_pos rfl]

/-- **C64, PLIV: what is created can be fitted** (one treatment, one instrument). -/
theorem C64_pliv_fit (E : Ext) {F : Frame n} {D : DataState n} (hD : FreshData F D) (hcl : D.cluster = none)
    (hy : ¬ ZeroOne (F.col D.y)) (read : List (Fin n → Cell) → ClusterVars n) {a : PlivArgs n P} {b : Resampling n}
    (hdraw : b.draw = .bool true) (hf : FoldsDrawn b b.first) {d z : String} (hd : D.d = [d]) (hz : D.z = some [z])
    {k : PlivClass n P} {s : LinState n P} (h : newPliv read a D b = .ok (k, s)) {args : FitArgs}
    (ha : ValidArgs (plivSpec k) d s.nRep args) : (fit F (plivSpec k) s args).2 = .ok () := by
  obtain ⟨k1, k2, k3, k4, k5, k6, hc⟩ := C64_pliv_object read a b h
  have hv : k.vars = none := k6.1 hcl
  have hsp : plivSpecOf k D = plivSpec k := by
    unfold plivSpecOf DataState.nInstr
    rw [hz]
    rfl
  unfold newPliv at h
  obtain ⟨s0, h0, h⟩ := bind_ok h
  iterate 6 obtain ⟨_, -, h⟩ := bind_ok h
  obtain ⟨s1, hs1', h⟩ := bind_ok h
  cases h
  obtain ⟨L, hL⟩ := created_smpls hc hdraw
  rw [hsp] at hs1'
  exact C63_pliv (E := E) hv (hD.notBinOut hy) ((hD.instr _).2 ⟨z, hz, rfl⟩) (created_reached E hd hs1' hf) hL ha

/-! ## The requirements are met -/

/-- What the roles of a data object built from arrays are. -/
theorem arrays_fresh {a : Arrays n} {u f : PyVal} {F : Frame n} {D : DataState n} (h : fromArrays a u f = .ok (F, D)) :
    FreshData F D ∧ F.col D.y = a.y ∧ D.d.map F.col = a.d ∧ (D.z.map fun z => z.map F.col) = a.z ∧ D.t.map F.col = a.t ∧
      D.s.map F.col = a.s ∧ (a.cluster = none → D.cluster = none) := by
  obtain ⟨-, h1, h2, -, h3, h4, h5, -, h6, -, -⟩ := C36_from_arrays_round_trip a u f F D h
  have hD : FreshData F D := by
    unfold fromArrays at h
    obtain ⟨S, hS, h⟩ := bind_ok h
    cases h
    exact ⟨C36_names_distinct a, _, _, hS⟩
  obtain ⟨-, -, g1, g2, g3, g4, -⟩ := hD.roles
  refine ⟨hD, by rw [← g1, h1], h2, by rw [← g2, h3], by rw [← g3, h4], by rw [← g4, h5], fun hc => ?_⟩
  rw [hc] at h6
  exact Option.not_isSome_iff_eq_none.1 (by rw [h6]; simp)

/-- Sixteen observations; `bit16 k` is the `k`-th binary digit of the number of the observation. -/
noncomputable def bit16 (k : ℕ) (i : Fin 16) : Cell := .num (if i.val / 2 ^ k % 2 = 0 then 0 else 1)

theorem bit16_zeroOne (k : ℕ) : ZeroOne (bit16 k) := fun i => by
  unfold bit16
  split_ifs
  · exact Or.inl rfl
  · exact Or.inr rfl

theorem bit16_nums (k : ℕ) (i : Fin 16) : nums (bit16 k) i = if i.val / 2 ^ k % 2 = 0 then 0 else 1 := rfl

/-- Outcome and covariate are the number of the observation. -/
noncomputable def exArrays16 (d : List (Fin 16 → Cell)) (z : Option (List (Fin 16 → Cell))) (t s : Option (Fin 16 → Cell)) : Arrays 16 :=
  { x := [fun i => .num i]
    y := fun i => .num i
    d := d
    z := z
    t := t
    s := s
    cluster := none }

/-- A data object with these columns. -/
theorem exDataOf (d : Fin 16 → Cell) (ds : List (Fin 16 → Cell)) (z : Option (List (Fin 16 → Cell))) (t s : Option (Fin 16 → Cell))
    (hd : ∀ c ∈ d :: ds, finiteCol c) (hz : ∀ l ∈ z, ∀ c ∈ l, finiteCol c)
    (ht : ∀ c ∈ t, finiteCol c) (hs : ∀ c ∈ s, finiteCol c) :
    ∃ F D, FreshData F D ∧ D.cluster = none ∧ ¬ ZeroOne (F.col D.y) ∧ D.d.map F.col = d :: ds ∧
      (D.z.map fun z => z.map F.col) = z ∧ D.t.map F.col = t ∧ D.s.map F.col = s := by
  obtain ⟨F, D, h⟩ := C36_from_arrays_accepts (exArrays16 (d :: ds) z t s) true true (by simp [exArrays16]) (by
    intro p hp
    simp only [arrayCols, exArrays16, List.mem_append] at hp
    have opt : ∀ name (l : Option (List (Fin 16 → Cell))), (∀ l' ∈ l, ∀ c ∈ l', finiteCol c) → p ∈ optCols name l → finiteCol p.2 := by
      intro name l hl hp
      unfold optCols at hp
      cases l with
      | none => cases hp
      | some l => exact hl l rfl _ (List.of_mem_zip hp).2
    have opt1 : ∀ name (l : Option (Fin 16 → Cell)), (∀ c ∈ l, finiteCol c) → p ∈ optCol name l → finiteCol p.2 := by
      intro name l hl hp
      unfold optCol at hp
      cases l with
      | none => cases hp
      | some c =>
        rw [List.mem_singleton.1 hp]
        exact hl c rfl
    rcases hp with (((((hp | hp) | hp) | hp) | hp) | hp) | hp
    · cases hp
    · rw [List.mem_singleton.1 (List.of_mem_zip hp).2]
      exact fun i => ⟨_, rfl⟩
    · rw [List.mem_singleton.1 hp]
      exact fun i => ⟨_, rfl⟩
    · exact hd _ (List.of_mem_zip hp).2
    · exact opt _ _ hz hp
    · exact opt1 _ _ ht hp
    · exact opt1 _ _ hs hp)
  obtain ⟨hD, h1, h2, h3, h4, h5, h6⟩ := arrays_fresh h
  refine ⟨F, D, hD, h6 rfl, ?_, h2, h3, h4, h5⟩
  rw [h1]
  intro hc
  rcases hc 2 with h | h
  · have : ((2 : Fin 16) : ℝ) = 0 := Cell.num.inj h
    norm_num at this
  · have : ((2 : Fin 16) : ℝ) = 1 := Cell.num.inj h
    norm_num at this

/-- The same with the lowest digit as the only treatment. -/
theorem exData16 (z : Option (List (Fin 16 → Cell))) (t s : Option (Fin 16 → Cell)) (hz : ∀ l ∈ z, ∀ c ∈ l, finiteCol c)
    (ht : ∀ c ∈ t, finiteCol c) (hs : ∀ c ∈ s, finiteCol c) :
    ∃ F D d, FreshData F D ∧ D.cluster = none ∧ ¬ ZeroOne (F.col D.y) ∧ D.d = [d] ∧ F.col d = bit16 0 ∧
      (D.z.map fun z => z.map F.col) = z ∧ D.t.map F.col = t ∧ D.s.map F.col = s := by
  obtain ⟨F, D, hD, h1, h2, h3, h4⟩ := exDataOf (bit16 0) [] z t s (by
    intro c hc
    rw [List.mem_singleton.1 hc]
    exact fun i => ⟨_, rfl⟩) hz ht hs
  obtain ⟨d, hd, -, l, hl⟩ := hD.first
  rw [hl] at h3
  obtain ⟨g1, g2⟩ := List.cons.inj h3
  rw [List.map_eq_nil_iff] at g2
  exact ⟨F, D, d, hD, h1, h2, by rw [hl, g2], g1, h4⟩

/-- A learner object for every purpose. -/
noncomputable def exLearnerObj : LearnerObj ℕ := ⟨false, true, true, true, true, true, false, exMeanL⟩

theorem exLearnerObj_usable (b : Bool) : exLearnerObj.Usable b := by
  cases b <;> exact ⟨rfl, rfl, rfl, rfl, rfl⟩

/-- Two folds, three repetitions; the first half is the first fold. -/
def exResampling : Resampling 16 :=
  { nFolds := .int 2
    nRep := .int 3
    draw := .bool true
    first := ⟨fun _ => 1, fun _ i => if i.val < 8 then 0 else 1, fun _ _ _ => 1⟩
    second := ⟨fun _ => 1, fun _ i => if i.val < 8 then 0 else 1, fun _ _ _ => 1⟩ }

theorem exResampling_ok (read : List (Fin 16 → Cell) → ClusterVars 16) {D : DataState 16} (h : D.cluster = none) :
    ResamplingOk read D exResampling := by
  unfold ResamplingOk
  rw [h]
  exact ⟨fun h => (by cases h), 2, 3, true, rfl, by norm_num, rfl, by norm_num, rfl, fun _ => by simp⟩

theorem card_ge {m : ℕ} {f : Fin n → ℝ} {v : ℝ} (g : Fin m → Fin n) (hg : Function.Injective g) (h : ∀ j, f (g j) = v) :
    m ≤ Nat.card {i // f i = v} := by
  have := Nat.card_le_card_of_injective (fun j : Fin m => (⟨g j, h j⟩ : {i // f i = v})) fun a b hab => hg (congrArg (fun x : {i // f i = v} => x.1) hab)
  simpa using this

theorem exStrata {F : Frame 16} {D : DataState 16} {d : String} (hd : D.d = [d]) (hF : F.col d = bit16 0) :
    StrataByTreat F D exResampling := by
  intro d' hd'
  rw [hd] at hd'
  obtain rfl := Option.some.inj hd'
  intro _ _
  rw [hF]
  refine ⟨fun i => ?_, 0, fun K hK => ?_⟩
  · rcases (bit16_zeroOne 0).nums i with h | h
    · exact ⟨0, by rw [h]; simp⟩
    · exact ⟨1, by rw [h]; simp⟩
  · obtain rfl : (2 : ℤ) = K := Option.some.inj hK
    exact_mod_cast card_ge (m := 2) (f := nums (bit16 0)) (v := 0) ![0, 2] (by decide) (by
      intro j
      fin_cases j <;> simp [bit16_nums])

theorem exStrataTwo {F : Frame 16} {D : DataState 16} {d c : String} (hd : D.d = [d]) (hF : F.col d = bit16 0)
    (hc : F.col c = bit16 1) : StrataByTwo F (some c) D exResampling := by
  intro d' c' hd' hc'
  rw [hd] at hd'
  obtain rfl := Option.some.inj hd'
  obtain rfl := Option.some.inj hc'
  intro _ _
  rw [hF, hc]
  refine ⟨fun i => ?_, 0, fun K hK => ?_⟩
  · rcases (bit16_zeroOne 0).nums i with h | h <;> rcases (bit16_zeroOne 1).nums i with h' | h'
    · exact ⟨0, by show nums (bit16 0) i + 2 * nums (bit16 1) i = _; rw [h, h']; simp⟩
    · exact ⟨2, by show nums (bit16 0) i + 2 * nums (bit16 1) i = _; rw [h, h']; simp⟩
    · exact ⟨1, by show nums (bit16 0) i + 2 * nums (bit16 1) i = _; rw [h, h']; simp⟩
    · exact ⟨3, by show nums (bit16 0) i + 2 * nums (bit16 1) i = _; rw [h, h']; norm_num⟩
  · obtain rfl : (2 : ℤ) = K := Option.some.inj hK
    exact_mod_cast card_ge (m := 2) (f := fun i => nums (bit16 0) i + 2 * nums (bit16 1) i) (v := 0) ![0, 4] (by decide) (by
      intro j
      fin_cases j <;> simp [bit16_nums])

theorem exAssign (r : ℕ) (i : Fin 16) : exResampling.second.assign r i = if i.val < 8 then 0 else 1 := rfl

theorem exSpread (k : ℕ) (hk : k < 2) : Spread (nums (bit16 k)) exResampling.second := by
  intro r v hv
  have h2 : k = 0 ∨ k = 1 := by omega
  rcases hv with rfl | rfl
  · refine ⟨0, 8, ?_, ?_, by rw [exAssign, exAssign]; decide⟩ <;> rcases h2 with rfl | rfl <;> simp [bit16_nums]
  · refine ⟨3, 11, ?_, ?_, by rw [exAssign, exAssign]; decide⟩ <;> rcases h2 with rfl | rfl <;> simp [bit16_nums]

theorem exSpreadIn (u : ℝ) (hu : u = 0 ∨ u = 1) : SpreadIn (nums (bit16 1)) u (nums (bit16 0)) exResampling.second := by
  intro r v hv
  rcases hu with rfl | rfl <;> rcases hv with rfl | rfl
  · exact ⟨0, 8, by simp [bit16_nums], by simp [bit16_nums], by simp [bit16_nums], by simp [bit16_nums], by rw [exAssign, exAssign]; decide⟩
  · exact ⟨1, 9, by simp [bit16_nums], by simp [bit16_nums], by simp [bit16_nums], by simp [bit16_nums], by rw [exAssign, exAssign]; decide⟩
  · exact ⟨2, 10, by simp [bit16_nums], by simp [bit16_nums], by simp [bit16_nums], by simp [bit16_nums], by rw [exAssign, exAssign]; decide⟩
  · exact ⟨3, 11, by simp [bit16_nums], by simp [bit16_nums], by simp [bit16_nums], by simp [bit16_nums], by rw [exAssign, exAssign]; decide⟩

theorem exFoldsDrawn : FoldsDrawn exResampling exResampling.second := by
  intro K hK r i
  obtain rfl : (2 : ℤ) = K := Option.some.inj hK
  show ((if i.val < 8 then 0 else 1 : ℕ) : ℤ) < 2
  split_ifs <;> norm_num

theorem exTrimming : TrimmingOk (.str "truncate") (.float (1 / 100)) := ⟨rfl, 1 / 100, rfl, by norm_num, by norm_num⟩

theorem exFitArgs {sp : LinSpec 16 ℕ} (tv : String) (r : ℕ) : ValidArgs sp tv r {} := ⟨.inl rfl, ⟨true, rfl⟩, ⟨false, rfl⟩, .inl rfl⟩

/-- IRM with default settings: data created from arrays are suitable, the model is created and fitted. -/
example (E : Ext) (read : List (Fin 16 → Cell) → ClusterVars 16) : ∃ F D k s, FreshData F D ∧
    newIrm (P := ℕ) read ⟨exLearnerObj, exLearnerObj, .str "ATE", .none, .bool false, .str "truncate", .float (1 / 100)⟩ D exResampling =
      .ok (k, s) ∧ (fit F (irmSpec k) s {}).2 = .ok () := by
  obtain ⟨F, D, d, hD, hcl, hy, hd, hF, hz, -, -⟩ := exData16 none none none (by simp) (by simp) (by simp)
  obtain ⟨⟨k, s⟩, h⟩ := (C64_irm (P := ℕ) hD read ⟨exLearnerObj, exLearnerObj, .str "ATE", .none, .bool false, .str "truncate", .float (1 / 100)⟩
    (by exact trivial) exResampling).2 ⟨exResampling_ok read hcl, Option.map_eq_none_iff.1 hz, ⟨d, hd, hF ▸ bit16_zeroOne 0⟩, Or.inl rfl, exStrata hd hF,
    exLearnerObj_usable _, exLearnerObj_usable _, (fun h => (by cases h)), ⟨_, rfl⟩, exTrimming,
    fun R _ => ⟨fun _ => .default .ate, fun h => absurd h (by simp)⟩⟩
  exact ⟨F, D, k, s, hD, h, C64_irm_fit E hD hcl hy read (by exact trivial) rfl exMeanL_compliant rfl exFoldsDrawn hd (hF ▸ exSpread 0 (by norm_num)) h
    (exFitArgs _ _)⟩

/-- IIVM with default settings. -/
example (E : Ext) (read : List (Fin 16 → Cell) → ClusterVars 16) : ∃ F D k s, FreshData F D ∧
    newIivm (P := ℕ) read ⟨exLearnerObj, exLearnerObj, exLearnerObj, .str "LATE", .none, .bool false, .str "truncate", .float (1 / 100)⟩ D
      exResampling = .ok (k, s) ∧ (fit F (iivmSpec k) s {}).2 = .ok () := by
  obtain ⟨F, D, d, hD, hcl, hy, hd, hF, hz, -, -⟩ := exData16 (some [bit16 1]) none none (by
    intro l hl c hc
    obtain rfl := Option.some.inj hl
    rw [List.mem_singleton.1 hc]
    exact fun i => ⟨_, rfl⟩) (by simp) (by simp)
  obtain ⟨z, hz, hzF⟩ := (hD.instr (bit16 1)).1 (by rw [hD.roles.2.2.2.1, hz])
  obtain ⟨⟨k, s⟩, h⟩ := (C64_iivm (P := ℕ) hD read ⟨exLearnerObj, exLearnerObj, exLearnerObj, .str "LATE", .none, .bool false, .str "truncate", .float (1 / 100)⟩
    (by exact trivial) exResampling).2 ⟨exResampling_ok read hcl, ⟨d, hd, hF ▸ bit16_zeroOne 0⟩, ⟨z, hz, hzF ▸ bit16_zeroOne 1⟩, rfl, by
      unfold oneInstr
      rw [hz]
      exact exStrataTwo hd hF hzF.symm,
    exLearnerObj_usable _, exLearnerObj_usable _, exLearnerObj_usable _, (fun h => (by cases h)), ⟨_, rfl⟩, exTrimming, Or.inl rfl⟩
  exact ⟨F, D, k, s, hD, h, C64_iivm_fit E hD hcl hy read (by exact trivial) rfl exMeanL_compliant exMeanL_compliant rfl exFoldsDrawn hd hz
    (hF ▸ hzF ▸ exSpreadIn 0 (Or.inl rfl)) (hF ▸ hzF ▸ exSpreadIn 1 (Or.inr rfl)) h (exFitArgs _ _)⟩

/-- APO, DiD (both scores), DiD for repeated cross-sections, SSM, PLR (without a classifier for the treatment) and the
quantile models: the requirements can be met. -/
example (read : List (Fin 16 → Cell) → ClusterVars 16) : ∃ F D, FreshData F D ∧
    (∃ r, newApo (P := ℕ) read ⟨exLearnerObj, exLearnerObj, 1, .str "APO", .none, .bool true, .str "truncate", .float (1 / 100)⟩ D exResampling = .ok r) ∧
    (∃ r, newDid (P := ℕ) read ⟨exLearnerObj, some exLearnerObj, .str "observational", .bool true, .str "truncate", .float (1 / 100)⟩ D exResampling = .ok r) ∧
    (∃ r, newDid (P := ℕ) read ⟨exLearnerObj, none, .str "experimental", .bool true, .str "truncate", .float (1 / 100)⟩ D exResampling = .ok r) ∧
    (∃ r, newDidCs (P := ℕ) read ⟨exLearnerObj, some exLearnerObj, .str "observational", .bool true, .str "truncate", .float (1 / 100)⟩ D exResampling = .ok r) ∧
    (∃ r, newSsm (P := ℕ) read ⟨exLearnerObj, exLearnerObj, exLearnerObj, .str "missing-at-random", .bool true, .str "truncate", .float (1 / 100)⟩ D exResampling = .ok r) ∧
    (∃ r, newPlr (P := ℕ) read ⟨exLearnerObj, exLearnerObj, none, .str "IV-type"⟩ D exResampling = .ok r) ∧
    (∃ r, newQuant (P := ℕ) .pq read ⟨exLearnerObj, exLearnerObj, .int 1, .float (1 / 2), .str "PQ", .bool true, .str "truncate", .float (1 / 100)⟩ D exResampling = .ok r) := by
  obtain ⟨F, D, d, hD, hcl, hy, hd, hF, hz, ht, hs⟩ := exData16 none (some (bit16 1)) (some (bit16 1)) (by simp)
    (by intro c hc; obtain rfl := Option.some.inj hc; exact fun i => ⟨_, rfl⟩)
    (by intro c hc; obtain rfl := Option.some.inj hc; exact fun i => ⟨_, rfl⟩)
  have hz := Option.map_eq_none_iff.1 hz
  obtain ⟨t, ht, htF⟩ := Option.map_eq_some_iff.1 ht
  obtain ⟨c, hs, hsF⟩ := Option.map_eq_some_iff.1 hs
  have hR := exResampling_ok read hcl
  have hst := exStrata hd hF
  have hzo : ∃ d, D.d = [d] ∧ ZeroOne (F.col d) := ⟨d, hd, hF ▸ bit16_zeroOne 0⟩
  have u := exLearnerObj_usable
  refine ⟨F, D, hD, (C64_apo hD read _ (by exact trivial) _).2 ⟨hR, ⟨d, hd⟩, hz, ?_, rfl, hst, u _, u _, (fun h => (by cases h)), ⟨_, rfl⟩, exTrimming, fun R _ => .default .ate⟩,
    (C64_did hD read _ _).2 ⟨hR, hz, hzo, Or.inl rfl, ⟨_, rfl⟩, hst, u _, fun _ => ⟨_, rfl, u _⟩, (fun h => (by cases h)), exTrimming⟩,
    (C64_did hD read _ _).2 ⟨hR, hz, hzo, Or.inr rfl, ⟨_, rfl⟩, hst, u _, (fun h => absurd h (by simp)), (fun h => (by cases h)), exTrimming⟩,
    (C64_didCs hD read _ _).2 ⟨hR, hz, hzo, ⟨t, ht, htF ▸ bit16_zeroOne 1⟩, Or.inl rfl, ⟨_, rfl⟩, ht ▸ exStrataTwo hd hF htF, u _,
      fun _ => ⟨_, rfl, u _⟩, (fun h => (by cases h)), exTrimming⟩,
    (C64_ssm hD read _ _).2 ⟨hR, exTrimming, (fun h => absurd h (by simp)), Or.inl rfl, ⟨c, hs⟩, hs ▸ exStrataTwo hd hF hsF, u _, u _, u _,
      (fun h => (by cases h)), ⟨_, rfl⟩⟩,
    (C64_plr hD read _ _).2 ⟨hR, hz, Or.inl rfl, u _, u _, (fun _ _ h => (by cases h)), (fun h => (by cases h))⟩,
    (C64_quant hD .pq read _ _).2 ⟨hR, fun _ => hz, hzo, (fun h => (by cases h)), ⟨fun _ => rfl, (fun h => (by cases h)), (fun h => (by cases h))⟩,
      ⟨1 / 2, rfl, by norm_num, by norm_num⟩, Or.inr rfl, ⟨_, rfl⟩, ?_, exTrimming, u _, u _⟩⟩
  · intro d' hd'
    rw [hd] at hd'
    obtain rfl := Option.some.inj hd'
    rw [hF]
    exact card_ge (m := 5) ![1, 3, 5, 7, 9] (by decide) (by intro j; fin_cases j <;> simp [bit16_nums])
  · rw [if_neg (by decide)]
    exact hst

/-! ## What the constructors let pass -/

/-- **C64 (violated), SSM.**  The constructor accepts several treatment variables, treatments that are not binary and a
selection indicator that is not binary, although the model is one for a binary treatment and a binary selection indicator:
here the treatments are constantly two and three and the selection indicator is constantly five. -/
theorem C64_ssm_violated (read : List (Fin 16 → Cell) → ClusterVars 16) : ∃ F D, ∃ a : SsmArgs ℕ, ∃ b r, FreshData F D ∧
    newSsm read a D b = .ok r ∧ 1 < D.d.length ∧ (∀ d ∈ D.d, ¬ ZeroOne (F.col d)) ∧ ∃ s, D.s = some s ∧ ¬ ZeroOne (F.col s) := by
  obtain ⟨F, D, hD, hcl, -, hd, -, -, hs⟩ := exDataOf (fun _ => .num 2) [fun _ => .num 3] none none (some fun _ => .num 5) (by
    intro c hc
    rcases List.mem_cons.1 hc with rfl | hc
    · exact fun i => ⟨_, rfl⟩
    · rw [List.mem_singleton.1 hc]
      exact fun i => ⟨_, rfl⟩) (by simp) (by simp) (by
    intro c hc
    obtain rfl := Option.some.inj hc
    exact fun i => ⟨_, rfl⟩)
  obtain ⟨s, hs, hsF⟩ := Option.map_eq_some_iff.1 hs
  have hst : StrataByTwo F D.s D exResampling := by
    intro d' c' hd' hc' _ _
    obtain rfl : s = c' := Option.some.inj (hs.symm.trans hc')
    obtain ⟨l, hl⟩ : ∃ l, D.d = d' :: l := by
      cases hq : D.d with
      | nil => rw [hq] at hd'; cases hd'
      | cons a l => rw [hq] at hd'; obtain rfl := Option.some.inj hd'; exact ⟨l, rfl⟩
    rw [hl] at hd
    rw [(List.cons.inj hd).1, hsF]
    refine ⟨fun i => ⟨12, by show (2 : ℝ) + 2 * 5 = _; norm_num⟩, 12, fun K hK => ?_⟩
    obtain rfl : (2 : ℤ) = K := Option.some.inj hK
    exact_mod_cast card_ge (m := 2) (f := fun i => nums (fun _ : Fin 16 => Cell.num 2) i + 2 * nums (fun _ : Fin 16 => Cell.num 5) i) (v := 12)
      ![0, 1] (by decide) (by
        intro j
        show (2 : ℝ) + 2 * 5 = _
        norm_num)
  have u := exLearnerObj_usable
  obtain ⟨r, h⟩ := (C64_ssm (P := ℕ) hD read
    ⟨exLearnerObj, exLearnerObj, exLearnerObj, .str "missing-at-random", .bool true, .str "truncate", .float (1 / 100)⟩ exResampling).2
    ⟨exResampling_ok read hcl, exTrimming, (fun h => absurd h (by simp)), Or.inl rfl, ⟨s, hs⟩, hst, u _, u _, u _,
      (fun h => (by cases h)), ⟨_, rfl⟩⟩
  refine ⟨F, D, _, _, r, hD, h, ?_, fun d hm hz => ?_, s, hs, fun hz => ?_⟩
  · have := congrArg List.length hd
    rw [List.length_map] at this
    rw [this]
    decide
  · have := List.mem_map_of_mem (f := F.col) hm
    rw [hd] at this
    rcases List.mem_cons.1 this with hq | hq
    · rw [hq] at hz
      rcases hz 0 with h | h <;> have := Cell.num.inj h <;> norm_num at this
    · rw [List.mem_singleton.1 hq] at hz
      rcases hz 0 with h | h <;> have := Cell.num.inj h <;> norm_num at this
  · rw [hsF] at hz
    rcases hz 0 with h | h <;> have := Cell.num.inj h <;> norm_num at this

/-- **C64 (violated), constant treatment.**  A treatment that is zero for all observations passes as "binary variable with
values 0 and 1". -/
theorem C64_constant_violated (read : List (Fin 16 → Cell) → ClusterVars 16) : ∃ F D, ∃ a : IrmArgs ℕ, ∃ b r, FreshData F D ∧
    newIrm read a D b = .ok r ∧ ∃ d, D.d = [d] ∧ ∀ i, F.col d i = .num 0 := by
  obtain ⟨F, D, hD, hcl, -, hd, hz, -, -⟩ := exDataOf (fun _ => .num 0) [] none none none (by
    intro c hc
    rw [List.mem_singleton.1 hc]
    exact fun i => ⟨_, rfl⟩) (by simp) (by simp) (by simp)
  obtain ⟨d, -, -, l, hl⟩ := hD.first
  rw [hl] at hd
  obtain ⟨g1, g2⟩ := List.cons.inj hd
  rw [List.map_eq_nil_iff] at g2
  rw [g2] at hl
  have hst : StrataByTreat F D exResampling := by
    intro d' hd' _ _
    rw [hl] at hd'
    obtain rfl := Option.some.inj hd'
    rw [g1]
    refine ⟨fun i => ⟨0, by show (0 : ℝ) = _; norm_num⟩, 0, fun K hK => ?_⟩
    obtain rfl : (2 : ℤ) = K := Option.some.inj hK
    exact_mod_cast card_ge (m := 2) (f := nums fun _ : Fin 16 => Cell.num 0) (v := 0) ![0, 1] (by decide) (fun j => rfl)
  obtain ⟨r, h⟩ := (C64_irm (P := ℕ) hD read ⟨exLearnerObj, exLearnerObj, .str "ATE", .none, .bool false, .str "truncate", .float (1 / 100)⟩
    (by exact trivial) exResampling).2 ⟨exResampling_ok read hcl, Option.map_eq_none_iff.1 hz, ⟨d, hl, fun i => Or.inl (by rw [g1])⟩, Or.inl rfl, hst,
    exLearnerObj_usable _, exLearnerObj_usable _, (fun h => (by cases h)), ⟨_, rfl⟩, exTrimming,
    fun R _ => ⟨fun _ => .default .ate, fun h => absurd h (by simp)⟩⟩
  exact ⟨F, D, _, _, r, hD, h, d, hl, fun i => by rw [g1]⟩

/-- **C64 (violated), changed data.**  After the treatment of a data object was changed to a column that is not binary, PLR
still accepts a classifier for the treatment, because the indicator of the old treatment is consulted. -/
theorem C64_stale_violated (read : List (Fin 2 → Cell) → ClusterVars 2) : ∃ (F : Frame 2) (D : DataState 2), ∃ a : PlrArgs ℕ, ∃ b r,
    FreshData F D ∧ (dataStep F D (.setD (.str "e"))).2 = .ok () ∧ (dataStep F D (.setD (.str "e"))).1.d = ["e"] ∧ ¬ ZeroOne (F.col "e") ∧
    a.ml_m.isClassifier = true ∧ newPlr read a (dataStep F D (.setD (.str "e"))).1 b = .ok r := by
  have h1 : dataStep exFrame exState (.setD (.str "e")) =
      ({ exState with d := ["e"], dv := exFrame.col "e" }, .ok ()) := by
    have : colList exFrame (.str "e") = .ok ["e"] := by simp [colList, exFrame]
    simp only [dataStep, this]
    rw [finishXD_finite exFrame_finite (tv := "e") (l := []) rfl
      (by simp [disjointAll, disjointBase, disjointTS, disjointCluster, disj, exState])]
    simp [xdList, exState]
  let a : PlrArgs ℕ := ⟨exLearnerObj, { exLearnerObj with isClassifier := true }, none, .str "partialling out"⟩
  let b : Resampling 2 := ⟨.int 2, .int 1, .bool false, ⟨fun _ => 1, fun _ _ => 0, fun _ _ _ => 1⟩, ⟨fun _ => 1, fun _ _ => 0, fun _ _ _ => 1⟩⟩
  let D : DataState 2 := { exState with d := ["e"], dv := exFrame.col "e" }
  have hR : ResamplingOk read D b := ⟨fun h => (by cases h), 2, 1, false, rfl, by norm_num, rfl, by norm_num, rfl, fun h => (by cases h)⟩
  obtain ⟨s0, h0⟩ := (C64_base (P := ℕ) read D b).2 hR
  have c1 := (checkNoInstr_ok_iff D).2 rfl
  obtain ⟨iv, c2⟩ := (pl_score_iff a.score).2 (Or.inr rfl)
  have c3 := (LearnerObj.check_ok_iff a.ml_l true false false).2 ⟨rfl, exLearnerObj_usable _⟩
  have c4 := (LearnerObj.check_ok_iff a.ml_m true true true).2 ⟨rfl, rfl, rfl, rfl, rfl, rfl⟩
  have c5 : checkPlrG a iv = .ok false := rfl
  have c6 : checkTreatClassifier true D = .ok () := rfl
  obtain ⟨s, hs⟩ := second_ok hR (sp := plrSpec
    { ml_l := a.ml_l.run
      ml_m := a.ml_m.run
      ml_g := (a.ml_g.getD a.ml_l).run
      mClassifier := true
      iv := iv
      vars := varsOf read D }) rfl b.first
  have hnew : ∃ r, newPlr read a D b = .ok r := by
    unfold newPlr
    rw [h0]
    simp only [bind, Except.bind, c1, c2, c3, c4, c5, c6]
    rw [hs]
    exact ⟨_, rfl⟩
  obtain ⟨r, hr⟩ := hnew
  refine ⟨exFrame, exState, a, b, r, ⟨by simp [exFrame], _, _, exInit⟩, by rw [h1], by rw [h1], ?_, rfl, by rw [h1]; exact hr⟩
  intro hz
  have h5 := hz 0
  have hne : ¬ ("e" : String) = "d" := by decide
  simp only [exFrame, Cell.num.injEq, if_neg hne, if_true] at h5
  norm_num at h5

end DML
