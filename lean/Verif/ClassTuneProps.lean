import Verif.ClassTune
import Verif.TuneProps
import Verif.NestedClassesProps
import Verif.ConstructProps

/-!
# C72: learners are tuned for the task they are used for

After `tune` and `fit`, the predictions of a nuisance come from the learner with the parameters that the search found on
the same kind of data on which `fit` trains it: the same subgroup of observations, the same covariates and the same
target.
-/

namespace DML

open Finset

variable {n : ℕ} {P : Type}

/-! ## Specification -/

/-- The rows of a regression or classification task: the observations of `rows` in the subgroup `on`, with covariates `x`
and target `y`. -/
def taskRows (on : Fin n → Prop) [DecidablePred on] (x : Fin n → List Cell) (y : Fin n → ℝ) (rows : List (Fin n)) :
    List (List Cell × ℝ) := (rows.filter fun i => decide (on i)).map fun i => (x i, y i)

/-- The parameters that tuning is to find for fold `q` of repetition `k` with training observations `train`: those of the
search on the task of this training sample, or, if tuning is not done on the folds, on the task of the whole sample. -/
def tunedBest (onFolds : Bool) (g : ℕ → SearchFn P (List Cell)) (k q : ℕ) (on : Fin n → Prop) [DecidablePred on]
    (x : Fin n → List Cell) (y : Fin n → ℝ) (train : List (Fin n)) : P :=
  if onFolds then (g k q (taskRows on x y train)).best else (g 0 0 (taskRows on x y (List.finRange n))).best

/-- `t` is the model object after tuning with the search `f` (on the folds or on the whole sample), storing the
parameters, and a fit that estimates all nuisances and stores their predictions. -/
structure TunedFit (F : Frame n) (sp : LinSpec n P) (f : Search n P) (onFolds : Bool) (s : LinState n P) (a : FitArgs)
    (t : LinState n P) : Prop where
  ready : FitReady sp s
  treats : s.data.d.Nodup
  tuned : ∃ o, (tune F sp f onFolds true s).2 = .ok o
  fitted : (fit F sp (tune F sp f onFolds true s).1 a).2 = .ok ()
  final : t = (fit F sp (tune F sp f onFolds true s).1 a).1
  noExt : a.ext = .none
  store : a.storePredictions = .bool true

/-- `S` is the split of repetition `k`, `tv` the treatment number `j`. -/
structure At (s : LinState n P) (j k : ℕ) (tv : String) (S : List (Fold n)) : Prop where
  treat : s.data.d[j]? = some tv
  split : (s.smpls.bind fun L => L[k]?) = some S

/-- The predictions of nuisance `l` for treatment number `j` in repetition `k`. -/
def LinState.predOf (t : LinState n P) (j k : ℕ) (l : String) : Option (NV n) :=
  (t.preds.bind fun T => T j k).bind fun q => lookupKey l q.1

/-- The stored predictions of nuisance `l` are those of learner `L`, with the parameters found by the search on the task
(`on`, `x`, `y`), trained on the training rows of the task (`on`, `x`, `y'`); afterwards transformed by `post`. -/
def UsesTunedFor (t : LinState n P) (j k : ℕ) (S : List (Fold n)) (onFolds : Bool) (T : Searches P) (l : String)
    (L : Learner P (List Cell)) (m : Method) (on : Fin n → Prop) [DecidablePred on] (x : Fin n → List Cell)
    (y y' : Fin n → ℝ) (post : ℝ → ℝ) : Prop :=
  ∃ p, t.predOf j k l = some p ∧ ∀ q (hq : q < S.length), ∀ i ∈ S[q].test,
    ClassesSeen L m y' (S[q].train.filter fun i => decide (on i)) →
    p i = (L.answer m (some (tunedBest onFolds (T l j) k q on x y S[q].train)) (taskRows on x y' S[q].train) (x i)).map post

/-- The same with one task (`on`, `x`, `y`): the learner is trained on what its parameters were tuned for. -/
def UsesTuned (t : LinState n P) (j k : ℕ) (S : List (Fold n)) (onFolds : Bool) (T : Searches P) (l : String)
    (L : Learner P (List Cell)) (m : Method) (on : Fin n → Prop) [DecidablePred on] (x : Fin n → List Cell) (y : Fin n → ℝ)
    (post : ℝ → ℝ) : Prop := UsesTunedFor t j k S onFolds T l L m on x y y post

/-! ## Searches -/

/-- Whenever the search `f` succeeds on data `D`, its parameters for `l` are those found by `g` on the rows of the task. -/
def TunesTask (f : Search n P) (g : ℕ → ℕ → SearchFn P (List Cell)) (l : String) (D : DataState n) (on : Fin n → Prop)
    [DecidablePred on] (x : Fin n → List Cell) (y : Fin n → ℝ) : Prop :=
  ∀ j k S r, f j k D S = .ok r → ∃ ps, lookupKey l r = some ps ∧ ((∀ h ∈ S, h.train.Pairwise (· < ·)) →
    ∀ q (hq : q < S.length), ps[q]? = some (g j k q (taskRows on x y S[q].train)).best)

/-- The same with one of several possible targets. -/
def TunesFam (f : Search n P) (g : ℕ → ℕ → SearchFn P (List Cell)) (l : String) (D : DataState n) (on : Fin n → Prop)
    [DecidablePred on] (x : Fin n → List Cell) (fam : (Fin n → ℝ) → Prop) : Prop :=
  ∀ j k S r, f j k D S = .ok r → ∃ ps y, lookupKey l r = some ps ∧ fam y ∧ ((∀ h ∈ S, h.train.Pairwise (· < ·)) →
    ∀ q (hq : q < S.length), ps[q]? = some (g j k q (taskRows on x y S[q].train)).best)

theorem TunesTask.fam {f : Search n P} {g : ℕ → ℕ → SearchFn P (List Cell)} {l : String} {D : DataState n} {on : Fin n → Prop}
    [DecidablePred on] {x : Fin n → List Cell} {y : Fin n → ℝ} (h : TunesTask f g l D on x y) :
    TunesFam f g l D on x (· = y) := by
  intro j k S r hr
  obtain ⟨ps, h1, h2⟩ := h j k S r hr
  exact ⟨ps, y, h1, rfl, h2⟩

theorem plainTune_at (f : SearchFn P (List Cell)) (x : Fin n → List Cell) (y : Fin n → ℝ) {S : List (Fold n)} {q : ℕ}
    (hq : q < S.length) : (plainTune f x y S)[q]? = some (f q (taskRows (fun _ => True) x y S[q].train)).best := by
  unfold plainTune taskRows
  rw [List.getElem?_map, dmlTune_getElem?, List.getElem?_map, List.getElem?_eq_getElem hq]
  simp

theorem condTune_at (f : SearchFn P (List Cell)) (x : Fin n → List Cell) (y : Fin n → ℝ) (on : Fin n → Prop)
    [DecidablePred on] {S : List (Fold n)} (hS : ∀ h ∈ S, h.train.Pairwise (· < ·)) {q : ℕ} (hq : q < S.length) :
    (condTune f x y on S)[q]? = some (f q (taskRows on x y S[q].train)).best := by
  unfold condTune plainTune taskRows
  rw [List.getElem?_map, dmlTune_getElem?, List.getElem?_map, condSmpls, List.getElem?_map, List.getElem?_eq_getElem hq]
  have := C27_training_sets_sorted on S[q] (hS _ (List.getElem_mem hq))
  simp only [Option.map_some, this]

/-! ## Tuning and fitting -/

theorem extOf_none {F : Frame n} {sp : LinSpec n P} {s : LinState n P} {k j : ℕ} {c : CellIn n P}
    (h : CellFrom F sp s .none k j c) (l : String) : c.extOf l = none := by
  have he := h.ext
  unfold setExt at he
  have key : ∀ (ls : List String) (v : List (String × Option (Fin n → ℝ))),
      (ls.mapM fun l => (Except.ok (l, none) : Except Exc (String × Option (Fin n → ℝ)))) = .ok v →
      (lookupKey l v).join = none := by
    intro ls
    induction ls with
    | nil =>
      intro v hv
      obtain rfl := Except.ok.inj hv
      rfl
    | cons a ls ih =>
      intro v hv
      rw [List.mapM_cons] at hv
      obtain ⟨b, hb, hv⟩ := bind_ok hv
      obtain ⟨w, hw, hv⟩ := bind_ok hv
      obtain rfl := Except.ok.inj hv
      obtain rfl := Except.ok.inj hb
      unfold lookupKey
      split_ifs
      · rfl
      · exact ih w hw
  exact key _ _ he

theorem finRange_sorted : ∀ h ∈ [(⟨List.finRange n, List.finRange n⟩ : Fold n)], h.train.Pairwise (· < ·) := by
  intro h hh
  obtain rfl := List.mem_singleton.1 hh
  exact List.pairwise_lt_finRange n

/-- The parameters the object holds after tuning. -/
theorem tuned_params {F : Frame n} {sp : LinSpec n P} {f : Search n P} {onFolds : Bool} {s : LinState n P}
    (hR : FitReady sp s) (hd : s.data.d.Nodup) {o : TuneOut P} (ho : (tune F sp f onFolds true s).2 = .ok o) {j k : ℕ}
    {tv : String} {S : List (Fold n)} (hA : At s j k tv S) (hS : ∀ h ∈ S, h.train.Pairwise (· < ·)) {l : String}
    {g : ℕ → ℕ → SearchFn P (List Cell)} {on : Fin n → Prop} [DecidablePred on] {x : Fin n → List Cell}
    {fam : (Fin n → ℝ) → Prop} (hT : TunesFam f g l (activeData F s.data tv) on x fam) :
    ∃ y, fam y ∧ ∀ q (hq : q < S.length),
      (tune F sp f onFolds true s).1.paramAt l tv k q = some (tunedBest onFolds (g j) k q on x y S[q].train) := by
  obtain ⟨L, hL, hLk⟩ := Option.bind_eq_some_iff.1 hA.split
  obtain ⟨hLl, hLS⟩ := hR.split L hL
  obtain ⟨hk, hkS⟩ := List.getElem?_eq_some_iff.1 hLk
  rw [hLl] at hk
  have hqn : ∀ {q}, q < S.length → q < s.nFolds := by
    intro q hq
    rw [← (hLS S (List.mem_of_getElem? hLk)).2]
    exact hq
  obtain ⟨hj, hjv⟩ := List.getElem?_eq_some_iff.1 hA.treat
  have mem : ∀ {r : TuneRes P} {ps}, lookupKey l r = some ps → l ∈ tuneKeys r := fun h' =>
    List.mem_map.2 ⟨_, lookupKey_mem h', rfl⟩
  cases onFolds with
  | true =>
    obtain ⟨t, -, ht⟩ := tune_folds ho
    obtain ⟨-, -, -, -, h5⟩ := tuneFolds_ok hR.shaped.pos hd List.nodup_range ht
    obtain ⟨-, tv', htv, rs, hl, hres, -, hpar⟩ := h5 j (List.mem_range.2 hj)
    obtain rfl : tv = tv' := Option.some.inj (hA.treat.symm.trans htv)
    obtain ⟨r₀, hr₀, tv0, S₀, e1, e2, e3⟩ := hres 0 hR.shaped.pos
    obtain rfl : tv = tv0 := Option.some.inj (hA.treat.symm.trans e1)
    obtain ⟨r, hr, tv1, S₁, e4, e5, e6⟩ := hres k hk
    obtain rfl : tv = tv1 := Option.some.inj (hA.treat.symm.trans e4)
    obtain rfl : S = S₁ := Option.some.inj (hA.split.symm.trans e5)
    obtain ⟨ps₀, -, hps₀, -⟩ := hT _ _ _ _ e3
    obtain ⟨ps, y, hps, hy, hv⟩ := hT _ _ _ _ e6
    refine ⟨y, hy, fun q hq => ?_⟩
    rw [hpar rfl r₀ hr₀ l (mem hps₀) k hk q (hqn hq), hr, Option.bind_some, hps, Option.bind_some, hv hS q hq]
    rfl
  | false =>
    obtain ⟨t, -, ht⟩ := tune_global ho
    obtain ⟨-, -, h4⟩ := tuneGlobal_ok hd List.nodup_range ht
    obtain ⟨tv', htv, r, ⟨tv1, e1, e2⟩, hpar⟩ := h4 rfl j (List.mem_range.2 hj)
    obtain rfl : tv = tv' := Option.some.inj (hA.treat.symm.trans htv)
    obtain rfl : tv = tv1 := Option.some.inj (hA.treat.symm.trans e1)
    obtain ⟨ps, y, hps, hy, hv⟩ := hT _ _ _ _ e2
    refine ⟨y, hy, fun q hq => ?_⟩
    rw [hpar l (mem hps) k hk q (hqn hq), hps, Option.bind_some, hv finRange_sorted 0 (by simp)]
    rfl

/-- The cell of a fit after tuning. -/
theorem tuned_cell {F : Frame n} {sp : LinSpec n P} {f : Search n P} {onFolds : Bool} {s t : LinState n P} {a : FitArgs}
    (H : TunedFit F sp f onFolds s a t) {j k : ℕ} {tv : String} {S : List (Fold n)} (hA : At s j k tv S)
    (hS : SplitOk S) :
    ∃ c o, c.data = activeData F s.data tv ∧ c.smpls = S ∧ (∀ l, c.extOf l = none) ∧ sp.est c = .ok o ∧
      (∀ l, t.predOf j k l = lookupKey l o.preds) ∧
      ∀ (l : String) (g : ℕ → ℕ → SearchFn P (List Cell)) (on : Fin n → Prop) [DecidablePred on] (x : Fin n → List Cell)
        (fam : (Fin n → ℝ) → Prop), l ∈ sp.learners → TunesFam f g l (activeData F s.data tv) on x fam →
        ∃ y, fam y ∧ ∀ q (hq : q < S.length),
          (c.paramsOf l).at q = some (tunedBest onFolds (g j) k q on x y S[q].train) := by
  obtain ⟨o', ho'⟩ := H.tuned
  have hfr := tune_frame F sp f onFolds true s
  have hpar := fun (l : String) (g : ℕ → ℕ → SearchFn P (List Cell)) (on : Fin n → Prop) (_ : DecidablePred on)
    (x : Fin n → List Cell) (fam : (Fin n → ℝ) → Prop) (hT : TunesFam f g l (activeData F s.data tv) on x fam) =>
    tuned_params H.ready H.treats ho' hA hS.sorted (l := l) (g := g) (on := on) (x := x) (fam := fam) hT
  have hfit := H.fitted
  have hfin := H.final
  generalize (tune F sp f onFolds true s).1 = s' at *
  have hd' : s'.data.d = s.data.d := hfr.data.d
  have hs' : s'.smpls = s.smpls := by have := hfr.rest; rw [this]
  have hr' : s'.nRep = s.nRep := by have := hfr.rest; rw [this]
  obtain ⟨L, hL, hLk⟩ := Option.bind_eq_some_iff.1 hA.split
  obtain ⟨hLl, -⟩ := H.ready.split L hL
  obtain ⟨hk, -⟩ := List.getElem?_eq_some_iff.1 hLk
  obtain ⟨hj, -⟩ := List.getElem?_eq_some_iff.1 hA.treat
  obtain ⟨p, m, _, hc, _⟩ := fit_ok hfit
  obtain ⟨hp', hm⟩ := checkFit_ok hc
  rw [H.store] at hp'; cases hp'
  obtain ⟨c, o, l, hcell, -, ho, -, -, -, -, -, hpr, -⟩ := fit_cells hfit H.store hm (j := j) (k := k)
    (by rw [hd']; exact hj) (by rw [hr', ← hLl]; exact hk)
  have htr : c.treat = tv := by
    have := hcell.treat
    rw [hd', hA.treat] at this
    exact (Option.some.inj this).symm
  have hdata : c.data = activeData F s.data tv := by rw [hcell.data, htr, activeData_congr F hfr.data]
  have hsm : c.smpls = S := by
    obtain ⟨L', h1, h2⟩ := hcell.smpls
    rw [hs', hL] at h1
    obtain rfl := Option.some.inj h1
    exact (Option.some.inj (hLk.symm.trans h2)).symm
  rw [H.noExt] at hcell
  refine ⟨c, o, hdata, hsm, extOf_none hcell, ho, fun l => ?_, ?_⟩
  · have := hpr rfl
    rw [hfin]
    unfold LinState.predOf
    cases hq : (fit F sp s' a).1.preds with
    | none => rw [hq] at this; cases this
    | some T =>
      rw [hq] at this
      have h0 : T j k = some (o.preds, o.targets) := Option.some.inj this
      rw [Option.bind_some, h0]
      rfl
  · intro l g on _ x fam hl hT
    obtain ⟨y, hy, h⟩ := hpar l g on _ x fam hT
    refine ⟨y, hy, fun q hq => ?_⟩
    rw [hcell.paramsOf hl, htr]
    exact h q hq

/-- From the rule for one cell to the fit after tuning. -/
theorem tuned_stores_fam {F : Frame n} {sp : LinSpec n P} {f : Search n P} {onFolds : Bool} {s t : LinState n P} {a : FitArgs}
    (H : TunedFit F sp f onFolds s a t) {j k : ℕ} {tv : String} {S : List (Fold n)} (hA : At s j k tv S)
    (hS : SplitOk S) {T : Searches P} {l : String} {L : Learner P (List Cell)} {m : Method} {on : Fin n → Prop}
    [DecidablePred on] {x : Fin n → List Cell} {fam : (Fin n → ℝ) → Prop} {post : ℝ → ℝ} (hl : l ∈ sp.learners)
    (hT : TunesFam f (T l) l (activeData F s.data tv) on x fam)
    (hst : ∀ c o, SplitOk c.smpls → c.data = activeData F s.data tv → (∀ l, c.extOf l = none) → sp.est c = .ok o →
      ∃ y', fam y' ∧ Stores c o l L m on x y' post) :
    ∃ y y', fam y ∧ fam y' ∧ UsesTunedFor t j k S onFolds T l L m on x y y' post := by
  obtain ⟨c, o, h1, h2, h3, h4, h5, h6⟩ := tuned_cell H hA hS
  obtain ⟨y', hy', p, hp, hrule⟩ := hst c o (by rw [h2]; exact hS) h1 h3 h4
  obtain ⟨y, hy, hpar⟩ := h6 l (T l) on x fam hl hT
  refine ⟨y, y', hy, hy', p, by rw [h5, hp], fun q hq i hi hc => ?_⟩
  have hq' : q < c.smpls.length := by rw [h2]; exact hq
  have he : c.smpls[q] = S[q] := by simp only [h2]
  rw [hrule q hq' i (by rw [he]; exact hi) (by rw [he]; exact hc), hpar q hq, he]
  rfl

theorem tuned_stores {F : Frame n} {sp : LinSpec n P} {f : Search n P} {onFolds : Bool} {s t : LinState n P} {a : FitArgs}
    (H : TunedFit F sp f onFolds s a t) {j k : ℕ} {tv : String} {S : List (Fold n)} (hA : At s j k tv S)
    (hS : SplitOk S) {T : Searches P} {l : String} {L : Learner P (List Cell)} {m : Method} {on : Fin n → Prop}
    [DecidablePred on] {x : Fin n → List Cell} {y : Fin n → ℝ} {post : ℝ → ℝ} (hl : l ∈ sp.learners)
    (hT : TunesTask f (T l) l (activeData F s.data tv) on x y)
    (hst : ∀ c o, SplitOk c.smpls → c.data = activeData F s.data tv → c.extOf l = none → sp.est c = .ok o →
      Stores c o l L m on x y post) : UsesTuned t j k S onFolds T l L m on x y post := by
  obtain ⟨y₁, y₂, h1, h2, h⟩ := tuned_stores_fam H hA hS (T := T) hl hT.fam (m := m) (L := L) (post := post)
    fun c o g1 g2 g3 g4 => ⟨y, rfl, hst c o g1 g2 (g3 l) g4⟩
  obtain rfl : y₁ = y := h1
  obtain rfl : y₂ = y₁ := h2
  exact h

/-! ## The classes -/

theorem taskRows_congr {on on' : Fin n → Prop} [DecidablePred on] [DecidablePred on'] (h : ∀ i, on i ↔ on' i)
    (x : Fin n → List Cell) (y : Fin n → ℝ) (rows : List (Fin n)) : taskRows on x y rows = taskRows on' x y rows := by
  unfold taskRows
  congr 1
  exact List.filter_congr fun i _ => decide_eq_decide.2 (h i)

theorem plrPart_rule {L : Learner P (List Cell)} {m : Method} {c : CellIn n P} {l : String} {y : Fin n → ℝ}
    {r : CvRes n P (List Cell)} (hS : SplitOk c.smpls) (h : learn L m c l y = .ok r) :
    FoldRule c l L m (fun _ => True) (rowX c.data) y id r.preds := crossFit_plain hS (learn_ok h)

/-- **C26, PLR**: outcome and treatment are predicted out of fold. -/
theorem C26_plr {k : PlrClass n P} {c : CellIn n P} {o : LinOut n P} (hS : SplitOk c.smpls) (h : (plrSpec k).est c = .ok o) :
    (c.extOf "ml_l" = none → (k.iv = true → c.extOf "ml_g" = none) →
      Stores c o "ml_l" k.ml_l .predict (fun _ => True) (rowX c.data) c.y id) ∧
    (c.extOf "ml_m" = none → Stores c o "ml_m" k.ml_m (methodOf k.mClassifier) (fun _ => True) (rowX c.data) c.d id) ∧
    (k.iv = true → c.extOf "ml_g" = none → ∃ theta : ℝ,
      Stores c o "ml_g" k.ml_g .predict (fun _ => True) (rowX c.data) (fun i => c.y i - theta * c.d i) id) := by
  obtain ⟨l, h1, h⟩ := bind_ok h
  obtain ⟨m, h2, h⟩ := bind_ok h
  obtain ⟨g, h3, h⟩ := bind_ok h
  have hp := Except.ok.inj h
  subst hp
  refine ⟨fun he hg => ⟨_, rfl, ?_⟩, fun he => ⟨_, rfl, ?_⟩, fun hiv he => ?_⟩
  · unfold plrL at h1
    rw [he] at h1
    dsimp only at h1
    rw [if_neg] at h1
    · exact plrPart_rule hS h1
    · intro hc
      rw [Bool.and_eq_true] at hc
      rw [hg hc.1] at hc
      cases hc.2
  · unfold plrM at h2
    rw [he] at h2
    obtain ⟨r, hr, h2⟩ := bind_ok h2
    obtain ⟨_, -, h2⟩ := bind_ok h2
    obtain rfl := Except.ok.inj h2
    exact plrPart_rule hS hr
  · unfold plrG at h3
    rw [if_pos hiv, he] at h3
    exact ⟨_, _, rfl, plrPart_rule hS h3⟩

/-- **C72, PLR.** With the IV-type score `ml_g` is tuned and trained on residuals `y - theta * d`, with possibly different
preliminary values `theta`. -/
theorem C72_plr {F : Frame n} {c : PlrClass n P} {T : Searches P} {onFolds : Bool} {s t : LinState n P}
    {a : FitArgs} (H : TunedFit F (plrSpec c) (plrTune c.iv ⟨T "ml_l", T "ml_m", T "ml_g"⟩) onFolds s a t) {j k : ℕ}
    {tv : String} {S : List (Fold n)} (hA : At s j k tv S) (hS : SplitOk S) {D : DataState n}
    (hD : D = activeData F s.data tv) :
    UsesTuned t j k S onFolds T "ml_l" c.ml_l .predict (fun _ => True) (rowX D) D.yNum id ∧
    UsesTuned t j k S onFolds T "ml_m" c.ml_m (methodOf c.mClassifier) (fun _ => True) (rowX D) D.dNum id ∧
    (c.iv = true → ∃ theta theta' : ℝ, UsesTunedFor t j k S onFolds T "ml_g" c.ml_g .predict (fun _ => True) (rowX D)
      (fun i => D.yNum i - theta * D.dNum i) (fun i => D.yNum i - theta' * D.dNum i) id) := by
  have hr : ∀ {j k S r}, plrTune c.iv ⟨T "ml_l", T "ml_m", T "ml_g"⟩ j k D S = .ok r →
      lookupKey "ml_l" r = some (plainTune (T "ml_l" j k) (rowX D) D.yNum S) ∧
      lookupKey "ml_m" r = some (plainTune (T "ml_m" j k) (rowX D) D.dNum S) ∧
      (c.iv = true → ∃ theta : ℝ,
        lookupKey "ml_g" r = some (plainTune (T "ml_g" j k) (rowX D) (fun i => D.yNum i - theta * D.dNum i) S)) := by
    intro j k S r h
    rw [← Except.ok.inj h]
    split_ifs with hiv
    · exact ⟨rfl, rfl, fun _ => ⟨_, rfl⟩⟩
    · exact ⟨rfl, rfl, fun h => absurd h hiv⟩
  have hm : ∀ l ∈ ["ml_l", "ml_m"], l ∈ (plrSpec c).learners := by
    intro l hl
    unfold plrSpec
    dsimp only
    split_ifs
    · simp only [List.mem_cons, List.not_mem_nil, or_false] at hl ⊢
      rcases hl with h | h <;> simp [h]
    · exact hl
  refine ⟨?_, tuned_stores H hA hS (hm _ (by simp)) ?_ ?_, fun hiv => ?_⟩
  · obtain ⟨y, y', h1, h2, h⟩ := tuned_stores_fam H hA hS (T := T) (l := "ml_l") (L := c.ml_l) (m := .predict)
      (on := fun _ => True) (x := rowX D) (fam := (· = D.yNum)) (post := id) (hm _ (by simp))
      (by
        rw [← hD]
        intro j k S r h
        exact ⟨_, _, (hr h).1, rfl, fun hs q hq => plainTune_at _ _ _ hq⟩)
      (by
        rw [← hD]
        rintro c' o hc rfl he ho
        exact ⟨_, rfl, (C26_plr hc ho).1 (he _) fun _ => he _⟩)
    obtain rfl : y = D.yNum := h1
    obtain rfl : y' = D.yNum := h2
    exact h
  · rw [← hD]
    intro j k S r h
    exact ⟨_, (hr h).2.1, fun hs q hq => plainTune_at _ _ _ hq⟩
  · rw [← hD]
    rintro c' o hc rfl he ho
    exact (C26_plr hc ho).2.1 he
  · obtain ⟨y, y', ⟨theta, h1⟩, ⟨theta', h2⟩, h⟩ := tuned_stores_fam H hA hS (T := T) (l := "ml_g") (L := c.ml_g)
      (m := .predict) (on := fun _ => True) (x := rowX D)
      (fam := fun y => ∃ theta : ℝ, y = fun i => D.yNum i - theta * D.dNum i) (post := id)
      (by unfold plrSpec; dsimp only; rw [if_pos hiv]; simp)
      (by
        rw [← hD]
        intro j k S r h
        obtain ⟨theta, h3⟩ := (hr h).2.2 hiv
        exact ⟨_, _, h3, ⟨theta, rfl⟩, fun hs q hq => plainTune_at _ _ _ hq⟩)
      (by
        rw [← hD]
        rintro c' o hc rfl he ho
        obtain ⟨theta, h3⟩ := (C26_plr hc ho).2.2 hiv (he _)
        exact ⟨_, ⟨theta, rfl⟩, h3⟩)
    subst h1 h2
    exact ⟨theta, theta', h⟩

/-- **C72, IRM.** `g(0, X)` is tuned on the untreated, `g(1, X)` on the treated observations, as they are trained. -/
theorem C72_irm {F : Frame n} {c : IrmClass n P} {T : Searches P} {onFolds : Bool} {s t : LinState n P} {a : FitArgs}
    (H : TunedFit F (irmSpec c) (irmTune T) onFolds s a t) {j k : ℕ} {tv : String} {S : List (Fold n)} (hA : At s j k tv S)
    (hS : SplitOk S) {D : DataState n} (hD : D = activeData F s.data tv) :
    UsesTuned t j k S onFolds T "ml_g0" c.ml_g (methodOf c.gClassifier) (fun i => D.dNum i = 0) (rowX D) D.yNum id ∧
    UsesTuned t j k S onFolds T "ml_g1" c.ml_g (methodOf c.gClassifier) (fun i => D.dNum i = 1) (rowX D) D.yNum id ∧
    UsesTuned t j k S onFolds T "ml_m" c.ml_m .proba (fun _ => True) (rowX D) D.dNum (trim c.trimT) := by
  refine ⟨tuned_stores H hA hS (by simp [irmSpec]) ?_ ?_, tuned_stores H hA hS (by simp [irmSpec]) ?_ ?_,
    tuned_stores H hA hS (by simp [irmSpec]) ?_ ?_⟩ <;> rw [← hD]
  · intro j k S r hr
    obtain rfl := Except.ok.inj hr
    exact ⟨_, rfl, fun hs q hq => condTune_at _ _ _ _ hs hq⟩
  · rintro c' o hc rfl he ho
    exact (C27_irm hc ho).1 he
  · intro j k S r hr
    obtain rfl := Except.ok.inj hr
    exact ⟨_, rfl, fun hs q hq => condTune_at _ _ _ _ hs hq⟩
  · rintro c' o hc rfl he ho
    exact (C27_irm hc ho).2.1 he
  · intro j k S r hr
    obtain rfl := Except.ok.inj hr
    exact ⟨_, rfl, fun hs q hq => plainTune_at _ _ _ hq⟩
  · rintro c' o hc rfl he ho
    exact (C27_irm hc ho).2.2 he

/-- **C72, APO.** -/
theorem C72_apo {F : Frame n} {c : ApoClass n P} {T : Searches P} {onFolds : Bool} {s t : LinState n P} {a : FitArgs}
    (H : TunedFit F (apoSpec c) (apoTune c T) onFolds s a t) {j k : ℕ} {tv : String} {S : List (Fold n)} (hA : At s j k tv S)
    (hS : SplitOk S) {D : DataState n} (hD : D = activeData F s.data tv) :
    UsesTuned t j k S onFolds T "ml_g_d_lvl1" c.ml_g (methodOf c.gClassifier) (fun i => D.dNum i = c.level) (rowX D)
      D.yNum id ∧
    UsesTuned t j k S onFolds T "ml_g_d_lvl0" c.ml_g (methodOf c.gClassifier) (fun i => D.dNum i ≠ c.level)
      (fun i => D.dv i :: rowX D i) D.yNum id ∧
    UsesTuned t j k S onFolds T "ml_m" c.ml_m .proba (fun _ => True) (rowX D) (D.treated c.level) (trim c.trimT) := by
  have e1 : ∀ (D : DataState n) i, D.dNum i = c.level ↔ D.treated c.level i = 1 := by
    intro D i; unfold DataState.treated; by_cases hd : D.dNum i = c.level <;> simp [hd]
  have e0 : ∀ (D : DataState n) i, D.dNum i ≠ c.level ↔ D.treated c.level i = 0 := by
    intro D i; unfold DataState.treated; by_cases hd : D.dNum i = c.level <;> simp [hd]
  refine ⟨tuned_stores H hA hS (by simp [apoSpec]) ?_ ?_, tuned_stores H hA hS (by simp [apoSpec]) ?_ ?_,
    tuned_stores H hA hS (by simp [apoSpec]) ?_ ?_⟩ <;> rw [← hD]
  · intro j k S r hr
    obtain rfl := Except.ok.inj hr
    refine ⟨_, rfl, fun hs q hq => ?_⟩
    rw [taskRows_congr (e1 D)]
    exact condTune_at _ _ _ _ hs hq
  · rintro c' o hc rfl he ho
    exact (C27_apo hc ho).1 he
  · intro j k S r hr
    obtain rfl := Except.ok.inj hr
    refine ⟨_, rfl, fun hs q hq => ?_⟩
    rw [taskRows_congr (e0 D)]
    exact condTune_at _ _ _ _ hs hq
  · rintro c' o hc rfl he ho
    exact (C27_apo hc ho).2.1 he
  · intro j k S r hr
    obtain rfl := Except.ok.inj hr
    exact ⟨_, rfl, fun hs q hq => plainTune_at _ _ _ hq⟩
  · rintro c' o hc rfl he ho
    exact (C27_apo hc ho).2.2 he

/-- **C72, IIVM.** -/
theorem C72_iivm {F : Frame n} {c : IivmClass n P} {skip : P} {T : Searches P} {onFolds : Bool} {s t : LinState n P}
    {a : FitArgs} (H : TunedFit F (iivmSpec c) (iivmTune c skip T) onFolds s a t) {j k : ℕ} {tv : String} {S : List (Fold n)}
    (hA : At s j k tv S) (hS : SplitOk S) {D : DataState n} (hD : D = activeData F s.data tv) {z : Fin n → ℝ}
    (hz : D.instr = .ok z) :
    UsesTuned t j k S onFolds T "ml_g0" c.ml_g (methodOf c.gClassifier) (fun i => z i = 0) (rowX D) D.yNum id ∧
    UsesTuned t j k S onFolds T "ml_g1" c.ml_g (methodOf c.gClassifier) (fun i => z i = 1) (rowX D) D.yNum id ∧
    UsesTuned t j k S onFolds T "ml_m" c.ml_m .proba (fun _ => True) (rowX D) z (trim c.trimT) ∧
    (c.alwaysTakers = true → UsesTuned t j k S onFolds T "ml_r0" c.ml_r .proba (fun i => z i = 0) (rowX D) D.dNum id) ∧
    (c.neverTakers = true → UsesTuned t j k S onFolds T "ml_r1" c.ml_r .proba (fun i => z i = 1) (rowX D) D.dNum id) := by
  have hr : ∀ {j k S r}, iivmTune c skip T j k D S = .ok r → r =
      [("ml_g0", condTune (T "ml_g0" j k) (rowX D) D.yNum (fun i => z i = 0) S),
       ("ml_g1", condTune (T "ml_g1" j k) (rowX D) D.yNum (fun i => z i = 1) S),
       ("ml_m", plainTune (T "ml_m" j k) (rowX D) z S),
       ("ml_r0", iivmTuneR skip (T "ml_r0" j k) D z 0 c.alwaysTakers S),
       ("ml_r1", iivmTuneR skip (T "ml_r1" j k) D z 1 c.neverTakers S)] := by
    intro j k S r h
    obtain ⟨z', hz', h⟩ := bind_ok h
    obtain rfl : z = z' := Except.ok.inj (hz.symm.trans hz')
    exact (Except.ok.inj h).symm
  refine ⟨tuned_stores H hA hS (by simp [iivmSpec]) ?_ ?_, tuned_stores H hA hS (by simp [iivmSpec]) ?_ ?_,
    tuned_stores H hA hS (by simp [iivmSpec]) ?_ ?_, fun ha => tuned_stores H hA hS (by simp [iivmSpec]) ?_ ?_,
    fun ha => tuned_stores H hA hS (by simp [iivmSpec]) ?_ ?_⟩ <;> rw [← hD]
  · intro j k S r h
    rw [hr h]
    exact ⟨_, rfl, fun hs q hq => condTune_at _ _ _ _ hs hq⟩
  · rintro c' o hc rfl he ho
    obtain ⟨z', hz', h'⟩ := C27_iivm hc ho
    obtain rfl : z = z' := Except.ok.inj (hz.symm.trans hz')
    exact h'.1 he
  · intro j k S r h
    rw [hr h]
    exact ⟨_, rfl, fun hs q hq => condTune_at _ _ _ _ hs hq⟩
  · rintro c' o hc rfl he ho
    obtain ⟨z', hz', h'⟩ := C27_iivm hc ho
    obtain rfl : z = z' := Except.ok.inj (hz.symm.trans hz')
    exact h'.2.1 he
  · intro j k S r h
    rw [hr h]
    exact ⟨_, rfl, fun hs q hq => plainTune_at _ _ _ hq⟩
  · rintro c' o hc rfl he ho
    obtain ⟨z', hz', h'⟩ := C27_iivm hc ho
    obtain rfl : z = z' := Except.ok.inj (hz.symm.trans hz')
    exact h'.2.2.1 he
  · intro j k S r h
    rw [hr h, ha]
    exact ⟨_, rfl, fun hs q hq => condTune_at _ _ _ _ hs hq⟩
  · rintro c' o hc rfl he ho
    obtain ⟨z', hz', h'⟩ := C27_iivm hc ho
    obtain rfl : z = z' := Except.ok.inj (hz.symm.trans hz')
    exact h'.2.2.2.1 ha he
  · intro j k S r h
    rw [hr h, ha]
    exact ⟨_, rfl, fun hs q hq => condTune_at _ _ _ _ hs hq⟩
  · rintro c' o hc rfl he ho
    obtain ⟨z', hz', h'⟩ := C27_iivm hc ho
    obtain rfl : z = z' := Except.ok.inj (hz.symm.trans hz')
    exact h'.2.2.2.2 ha he

/-- **C72, DID.** -/
theorem C72_did {F : Frame n} {c : DidClass n P} {T : Searches P} {onFolds : Bool} {s t : LinState n P} {a : FitArgs}
    (H : TunedFit F (didSpec c) (didTune c T) onFolds s a t) {j k : ℕ} {tv : String} {S : List (Fold n)} (hA : At s j k tv S)
    (hS : SplitOk S) {D : DataState n} (hD : D = activeData F s.data tv) :
    UsesTuned t j k S onFolds T "ml_g0" c.ml_g (methodOf c.gClassifier) (fun i => D.dNum i = 0) (rowX D) D.yNum id ∧
    UsesTuned t j k S onFolds T "ml_g1" c.ml_g (methodOf c.gClassifier) (fun i => D.dNum i = 1) (rowX D) D.yNum id ∧
    (c.score = .observational →
      UsesTuned t j k S onFolds T "ml_m" c.ml_m .proba (fun _ => True) (rowX D) D.dNum (trim c.trimT)) := by
  refine ⟨tuned_stores H hA hS (by unfold didSpec; dsimp only; split <;> simp) ?_ ?_,
    tuned_stores H hA hS (by unfold didSpec; dsimp only; split <;> simp) ?_ ?_,
    fun hs => tuned_stores H hA hS (by unfold didSpec; dsimp only; rw [hs]; simp) ?_ ?_⟩ <;> rw [← hD]
  · intro j k S r hr
    obtain rfl := Except.ok.inj hr
    exact ⟨_, rfl, fun hs q hq => condTune_at _ _ _ _ hs hq⟩
  · rintro c' o hc rfl he ho
    exact (C27_did hc ho).1 he
  · intro j k S r hr
    obtain rfl := Except.ok.inj hr
    exact ⟨_, rfl, fun hs q hq => condTune_at _ _ _ _ hs hq⟩
  · rintro c' o hc rfl he ho
    exact (C27_did hc ho).2.1 he
  · intro j k S r hr
    obtain rfl := Except.ok.inj hr
    unfold didTuneM
    rw [hs]
    exact ⟨_, rfl, fun hs q hq => plainTune_at _ _ _ hq⟩
  · rintro c' o hc rfl he ho
    exact (C27_did hc ho).2.2 hs he

/-- **C72, DIDCS.** Every outcome regression is tuned on its own combination of treatment and time. -/
theorem C72_didcs {F : Frame n} {c : DidClass n P} {T : Searches P} {onFolds : Bool} {s t : LinState n P} {a : FitArgs}
    (H : TunedFit F (csSpec c) (csTune c T) onFolds s a t) {j k : ℕ} {tv : String} {S : List (Fold n)} (hA : At s j k tv S)
    (hS : SplitOk S) {D : DataState n} (hD : D = activeData F s.data tv) {w : Fin n → ℝ} (hw : D.time = .ok w) :
    (∀ l u v, (l, u, v) ∈ [("ml_g_d0_t0", (0 : ℝ), (0 : ℝ)), ("ml_g_d0_t1", 0, 1), ("ml_g_d1_t0", 1, 0), ("ml_g_d1_t1", 1, 1)] →
      UsesTuned t j k S onFolds T l c.ml_g (methodOf c.gClassifier) (fun i => D.dNum i = u ∧ w i = v) (rowX D) D.yNum id) ∧
    (c.score = .observational →
      UsesTuned t j k S onFolds T "ml_m" c.ml_m .proba (fun _ => True) (rowX D) D.dNum (trim c.trimT)) := by
  have hr : ∀ {j k S r}, csTune c T j k D S = .ok r → r =
      [("ml_g_d0_t0", condTune (T "ml_g_d0_t0" j k) (rowX D) D.yNum (fun i => D.dNum i = 0 ∧ w i = 0) S),
       ("ml_g_d0_t1", condTune (T "ml_g_d0_t1" j k) (rowX D) D.yNum (fun i => D.dNum i = 0 ∧ w i = 1) S),
       ("ml_g_d1_t0", condTune (T "ml_g_d1_t0" j k) (rowX D) D.yNum (fun i => D.dNum i = 1 ∧ w i = 0) S),
       ("ml_g_d1_t1", condTune (T "ml_g_d1_t1" j k) (rowX D) D.yNum (fun i => D.dNum i = 1 ∧ w i = 1) S)]
      ++ didTuneM c (T "ml_m" j k) D S := by
    intro j k S r h
    obtain ⟨w', hw', h⟩ := bind_ok h
    obtain rfl : w = w' := Except.ok.inj (hw.symm.trans hw')
    exact (Except.ok.inj h).symm
  refine ⟨fun l u v hm => tuned_stores H hA hS ?_ ?_ ?_,
    fun hs => tuned_stores H hA hS (by unfold csSpec; dsimp only; rw [hs]; simp) ?_ ?_⟩
  · simp only [List.mem_cons, Prod.mk.injEq, List.not_mem_nil, or_false] at hm
    rcases hm with ⟨rfl, rfl, rfl⟩ | ⟨rfl, rfl, rfl⟩ | ⟨rfl, rfl, rfl⟩ | ⟨rfl, rfl, rfl⟩ <;>
    · unfold csSpec
      dsimp only
      split <;> simp
  · rw [← hD]
    intro j k S r h
    rw [hr h]
    simp only [List.mem_cons, Prod.mk.injEq, List.not_mem_nil, or_false] at hm
    rcases hm with ⟨rfl, rfl, rfl⟩ | ⟨rfl, rfl, rfl⟩ | ⟨rfl, rfl, rfl⟩ | ⟨rfl, rfl, rfl⟩ <;>
      exact ⟨_, rfl, fun hs q hq => condTune_at _ _ _ _ hs hq⟩
  · rw [← hD]
    rintro c' o hc rfl he ho
    obtain ⟨w', hw', h', -⟩ := C27_didcs hc ho
    obtain rfl : w = w' := Except.ok.inj (hw.symm.trans hw')
    exact h' l u v hm he
  · rw [← hD]
    intro j k S r h
    rw [hr h]
    unfold didTuneM
    rw [hs]
    exact ⟨_, rfl, fun hs q hq => plainTune_at _ _ _ hq⟩
  · rw [← hD]
    rintro c' o hc rfl he ho
    obtain ⟨w', hw', -, h'⟩ := C27_didcs hc ho
    exact h' hs he

/-- **C72, SSM** with missingness at random. -/
theorem C72_ssm {F : Frame n} {c : SsmClass n P} {T : Searches P} {onFolds : Bool} {s t : LinState n P} {a : FitArgs}
    (H : TunedFit F (ssmSpec c) (ssmTune false T) onFolds s a t) {j k : ℕ} {tv : String} {S : List (Fold n)}
    (hA : At s j k tv S) (hS : SplitOk S) {D : DataState n} (hD : D = activeData F s.data tv) {w : Fin n → ℝ}
    (hw : D.sel = .ok w) :
    UsesTuned t j k S onFolds T "ml_g_d0" c.ml_g (methodOf c.gClassifier) (fun i => D.dNum i = 0 ∧ w i = 1) (rowX D) D.yNum id ∧
    UsesTuned t j k S onFolds T "ml_g_d1" c.ml_g (methodOf c.gClassifier) (fun i => D.dNum i = 1 ∧ w i = 1) (rowX D) D.yNum id ∧
    UsesTuned t j k S onFolds T "ml_pi" c.ml_pi .proba (fun _ => True) (fun i => rowX D i ++ [D.dv i]) w id ∧
    UsesTuned t j k S onFolds T "ml_m" c.ml_m .proba (fun _ => True) (rowX D) D.dNum (trim c.trimT) := by
  have hr : ∀ {j k S r}, ssmTune false T j k D S = .ok r → r =
      [("ml_g_d0", condTune (T "ml_g_d0" j k) (rowX D) D.yNum (fun i => D.dNum i = 0 ∧ w i = 1) S),
       ("ml_g_d1", condTune (T "ml_g_d1" j k) (rowX D) D.yNum (fun i => D.dNum i = 1 ∧ w i = 1) S),
       ("ml_pi", plainTune (T "ml_pi" j k) (fun i => rowX D i ++ [D.dv i]) w S),
       ("ml_m", plainTune (T "ml_m" j k) (rowX D) D.dNum S)] := by
    intro j k S r h
    obtain ⟨w', hw', h⟩ := bind_ok h
    obtain rfl : w = w' := Except.ok.inj (hw.symm.trans hw')
    obtain ⟨dx, hx, h⟩ := bind_ok h
    obtain rfl := Except.ok.inj hx
    exact (Except.ok.inj h).symm
  refine ⟨tuned_stores H hA hS (by simp [ssmSpec]) ?_ ?_, tuned_stores H hA hS (by simp [ssmSpec]) ?_ ?_,
    tuned_stores H hA hS (by simp [ssmSpec]) ?_ ?_, tuned_stores H hA hS (by simp [ssmSpec]) ?_ ?_⟩ <;> rw [← hD]
  · intro j k S r h
    rw [hr h]
    exact ⟨_, rfl, fun hs q hq => condTune_at _ _ _ _ hs hq⟩
  · rintro c' o hc rfl he ho
    obtain ⟨w', hw', h', -⟩ := C27_ssm hc ho
    obtain rfl : w = w' := Except.ok.inj (hw.symm.trans hw')
    exact h'
  · intro j k S r h
    rw [hr h]
    exact ⟨_, rfl, fun hs q hq => condTune_at _ _ _ _ hs hq⟩
  · rintro c' o hc rfl he ho
    obtain ⟨w', hw', -, h', -⟩ := C27_ssm hc ho
    obtain rfl : w = w' := Except.ok.inj (hw.symm.trans hw')
    exact h'
  · intro j k S r h
    rw [hr h]
    exact ⟨_, rfl, fun hs q hq => plainTune_at _ _ _ hq⟩
  · rintro c' o hc rfl he ho
    obtain ⟨w', hw', -, -, h', -⟩ := C27_ssm hc ho
    obtain rfl : w = w' := Except.ok.inj (hw.symm.trans hw')
    exact h'
  · intro j k S r h
    rw [hr h]
    exact ⟨_, rfl, fun hs q hq => plainTune_at _ _ _ hq⟩
  · rintro c' o hc rfl he ho
    obtain ⟨w', hw', -, -, -, h'⟩ := C27_ssm hc ho
    exact h'

/-- **C72, PLIV** with one instrument. -/
theorem C72_pliv {F : Frame n} {c : PlivClass n P} {T : Searches P} {onFolds : Bool} {s t : LinState n P} {a : FitArgs}
    (H : TunedFit F (plivSpec c) (plivTune c.iv T) onFolds s a t) {j k : ℕ} {tv : String} {S : List (Fold n)}
    (hA : At s j k tv S) (hS : SplitOk S) {D : DataState n} (hD : D = activeData F s.data tv) {z : Fin n → ℝ}
    (hz : D.instr = .ok z) :
    UsesTuned t j k S onFolds T "ml_l" c.ml_l .predict (fun _ => True) (rowX D) D.yNum id ∧
    UsesTuned t j k S onFolds T "ml_m" c.ml_m .predict (fun _ => True) (rowX D) z id ∧
    UsesTuned t j k S onFolds T "ml_r" c.ml_r .predict (fun _ => True) (rowX D) D.dNum id ∧
    (c.iv = true → ∃ theta theta' : ℝ, UsesTunedFor t j k S onFolds T "ml_g" c.ml_g .predict (fun _ => True) (rowX D)
      (fun i => D.yNum i - theta * D.dNum i) (fun i => D.yNum i - theta' * D.dNum i) id) := by
  have hr : ∀ {j k S r}, plivTune c.iv T j k D S = .ok r →
      lookupKey "ml_l" r = some (plainTune (T "ml_l" j k) (rowX D) D.yNum S) ∧
      lookupKey "ml_m" r = some (plainTune (T "ml_m" j k) (rowX D) z S) ∧
      lookupKey "ml_r" r = some (plainTune (T "ml_r" j k) (rowX D) D.dNum S) ∧
      (c.iv = true → ∃ theta : ℝ,
        lookupKey "ml_g" r = some (plainTune (T "ml_g" j k) (rowX D) (fun i => D.yNum i - theta * D.dNum i) S)) := by
    intro j k S r h
    obtain ⟨z', hz', h⟩ := bind_ok h
    obtain rfl : z = z' := Except.ok.inj (hz.symm.trans hz')
    rw [← Except.ok.inj h]
    split_ifs with hiv
    · exact ⟨rfl, rfl, rfl, fun _ => ⟨_, rfl⟩⟩
    · exact ⟨rfl, rfl, rfl, fun h => absurd h hiv⟩
  have hm : ∀ l ∈ ["ml_l", "ml_m", "ml_r"], l ∈ (plivSpec c).learners := by
    intro l hl
    unfold plivSpec
    dsimp only
    split_ifs
    · simp only [List.mem_cons, List.not_mem_nil, or_false] at hl ⊢
      rcases hl with h | h | h <;> simp [h]
    · exact hl
  refine ⟨tuned_stores H hA hS (hm _ (by simp)) ?_ ?_, tuned_stores H hA hS (hm _ (by simp)) ?_ ?_,
    tuned_stores H hA hS (hm _ (by simp)) ?_ ?_, fun hiv => ?_⟩
  all_goals try rw [← hD]
  · intro j k S r h
    exact ⟨_, (hr h).1, fun hs q hq => plainTune_at _ _ _ hq⟩
  · rintro c' o hc rfl he ho
    obtain ⟨z', hz', h1, h2, h3, -⟩ := C26_pliv hc ho
    exact h1 he
  · intro j k S r h
    exact ⟨_, (hr h).2.1, fun hs q hq => plainTune_at _ _ _ hq⟩
  · rintro c' o hc rfl he ho
    obtain ⟨z', hz', h1, h2, h3, -⟩ := C26_pliv hc ho
    obtain rfl : z = z' := Except.ok.inj (hz.symm.trans hz')
    exact h2 he
  · intro j k S r h
    exact ⟨_, (hr h).2.2.1, fun hs q hq => plainTune_at _ _ _ hq⟩
  · rintro c' o hc rfl he ho
    obtain ⟨z', hz', h1, h2, h3, -⟩ := C26_pliv hc ho
    exact h3 he
  · obtain ⟨y, y', ⟨theta, h1⟩, ⟨theta', h2⟩, h⟩ := tuned_stores_fam H hA hS (T := T) (l := "ml_g") (L := c.ml_g)
      (m := .predict) (on := fun _ => True) (x := rowX D)
      (fam := fun y => ∃ theta : ℝ, y = fun i => D.yNum i - theta * D.dNum i) (post := id)
      (by unfold plivSpec; dsimp only; rw [if_pos hiv]; simp)
      (by
        rw [← hD]
        intro j k S r h
        obtain ⟨theta, h3⟩ := (hr h).2.2.2 hiv
        exact ⟨_, _, h3, ⟨theta, rfl⟩, fun hs q hq => plainTune_at _ _ _ hq⟩)
      (by
        rw [← hD]
        rintro c' o hc rfl he ho
        obtain ⟨z', -, -, -, -, h3⟩ := C26_pliv hc ho
        obtain ⟨theta, h3⟩ := h3 hiv (he _)
        exact ⟨_, ⟨theta, rfl⟩, h3⟩)
    subst h1 h2
    exact ⟨theta, theta', h⟩

/-- The instruments with their columns. -/
def DataState.instrs (D : DataState n) : List (String × (Fin n → Cell)) := (D.z.getD []).zip (D.zv.getD [])

theorem DataState.instrs_nodup {D : DataState n} (h : (D.z.getD []).Nodup) : (D.instrs.map fun q => plivName q.1).Nodup := by
  have h1 : (D.instrs.map Prod.fst).Nodup := by
    unfold DataState.instrs
    refine h.sublist ?_
    generalize D.z.getD [] = zs
    generalize D.zv.getD [] = cs
    induction zs generalizing cs with
    | nil => simp
    | cons z zs ih =>
      cases cs with
      | nil => simp
      | cons c cs => exact (ih cs).cons_cons z
  have : (D.instrs.map fun q => plivName q.1) = (D.instrs.map Prod.fst).map plivName := by rw [List.map_map]; rfl
  rw [this]
  exact h1.map fun a b hab => by
    unfold plivName at hab
    have := congrArg String.toList hab
    simp only [String.toList_append, List.append_cancel_left_eq] at this
    exact String.toList_inj.1 this

theorem plivName_ne (z : String) : plivName z ≠ "ml_l" ∧ plivName z ≠ "ml_r" := by
  unfold plivName
  constructor <;>
  · intro h
    have := congrArg String.toList h
    simp [String.toList_append] at this

theorem mapM_keys {α : Type} {k : PlivClass n P} {c : CellIn n P} {L : List (String × (Fin n → Cell))}
    {ms : List (String × CvRes n P (List Cell))} (f : CvRes n P (List Cell) → α) (h : L.mapM (plivInstr k c) = .ok ms) :
    (ms.map fun q => (q.1, f q.2)).map Prod.fst = (L.map fun q => plivName q.1) ∧
    ∀ zc ∈ L, ∃ r, (plivName zc.1, r) ∈ ms ∧ plivPart k.ml_m c (plivName zc.1) (fun i => (zc.2 i).val) = .ok r := by
  induction L generalizing ms with
  | nil =>
    obtain rfl := Except.ok.inj h
    exact ⟨rfl, fun _ h => by cases h⟩
  | cons a L ih =>
    rw [List.mapM_cons] at h
    obtain ⟨b, hb, h⟩ := bind_ok h
    obtain ⟨w, hw, h⟩ := bind_ok h
    obtain rfl := Except.ok.inj h
    obtain ⟨r, hr, hb⟩ := bind_ok hb
    obtain rfl := Except.ok.inj hb
    obtain ⟨h1, h2⟩ := ih hw
    refine ⟨by simp only [List.map_cons, h1], fun zc hz => ?_⟩
    rcases List.mem_cons.1 hz with rfl | hz
    · exact ⟨r, List.mem_cons_self .., hr⟩
    · obtain ⟨r', h3, h4⟩ := h2 zc hz
      exact ⟨r', List.mem_cons_of_mem _ h3, h4⟩

/-- **C26, PLIV** with several instruments. -/
theorem C26_pliv_multi {k : PlivClass n P} {c : CellIn n P} {o : LinOut n P} (hS : SplitOk c.smpls) {zs : List String}
    (hz : (c.data.z.getD []).Nodup) (h : (plivMultiSpec k zs).est c = .ok o) :
    (c.extOf "ml_l" = none → Stores c o "ml_l" k.ml_l .predict (fun _ => True) (rowX c.data) c.y id) ∧
    (∀ zc ∈ c.data.instrs, c.extOf (plivName zc.1) = none →
      Stores c o (plivName zc.1) k.ml_m .predict (fun _ => True) (rowX c.data) (fun i => (zc.2 i).val) id) ∧
    (c.extOf "ml_r" = none → Stores c o "ml_r" k.ml_r .predict (fun _ => True) (rowX c.data) c.d id) := by
  obtain ⟨l, h1, h⟩ := bind_ok h
  obtain ⟨ms, h2, h⟩ := bind_ok h
  obtain ⟨r, h3, h⟩ := bind_ok h
  have hp := Except.ok.inj h
  subst hp
  obtain ⟨hk, hm⟩ := mapM_keys CvRes.preds h2
  have hnd : (([("ml_l", l.preds)] ++ (ms.map fun q => (q.1, q.2.preds)) ++ [("ml_r", r.preds)]).map Prod.fst).Nodup := by
    rw [List.map_append, List.map_append, hk]
    have hi := DataState.instrs_nodup hz
    refine List.nodup_append'.2 ⟨List.nodup_append'.2 ⟨by simp, hi, ?_⟩, by simp, ?_⟩
    · intro x hx hy
      obtain ⟨q, -, rfl⟩ := List.mem_map.1 hy
      exact (plivName_ne q.1).1 (by simpa using hx)
    · intro x hx hy
      obtain rfl : x = "ml_r" := by simpa using hy
      rcases List.mem_append.1 hx with hx | hx
      · simp at hx
      · obtain ⟨q, -, hq⟩ := List.mem_map.1 hx
        exact (plivName_ne q.1).2 hq
  refine ⟨fun he => ⟨_, lookupKey_eq_of_nodup hnd (by simp), plivPart_rule hS he h1⟩, fun zc hzc he => ?_,
    fun he => ⟨_, lookupKey_eq_of_nodup hnd (by simp), plivPart_rule hS he h3⟩⟩
  obtain ⟨q, hq1, hq2⟩ := hm zc hzc
  exact ⟨_, lookupKey_eq_of_nodup hnd (List.mem_append_left _ (List.mem_append_right _ (List.mem_map.2 ⟨_, hq1, rfl⟩))),
    plivPart_rule hS he hq2⟩

/-- **C72, PLIV** with several instruments. -/
theorem C72_pliv_multi {F : Frame n} {c : PlivClass n P} {zs : List String} {T : Searches P} {onFolds : Bool}
    {s t : LinState n P} {a : FitArgs} (H : TunedFit F (plivMultiSpec c zs) (plivMultiTune T) onFolds s a t) {j k : ℕ}
    {tv : String} {S : List (Fold n)} (hA : At s j k tv S) (hS : SplitOk S) {D : DataState n}
    (hD : D = activeData F s.data tv) (hz : D.z = some zs) (hn : zs.Nodup) :
    UsesTuned t j k S onFolds T "ml_l" c.ml_l .predict (fun _ => True) (rowX D) D.yNum id ∧
    (∀ zc ∈ D.instrs, UsesTuned t j k S onFolds T (plivName zc.1) c.ml_m .predict (fun _ => True) (rowX D)
      (fun i => (zc.2 i).val) id) ∧
    UsesTuned t j k S onFolds T "ml_r" c.ml_r .predict (fun _ => True) (rowX D) D.dNum id := by
  have hzn : (D.z.getD []).Nodup := by rw [hz]; exact hn
  have hnd : ∀ {j k S r}, plivMultiTune T j k D S = .ok r → (r.map Prod.fst).Nodup ∧
      ("ml_l", plainTune (T "ml_l" j k) (rowX D) D.yNum S) ∈ r ∧ ("ml_r", plainTune (T "ml_r" j k) (rowX D) D.dNum S) ∈ r ∧
      ∀ zc ∈ D.instrs, (plivName zc.1, plainTune (T (plivName zc.1) j k) (rowX D) (fun i => (zc.2 i).val) S) ∈ r := by
    intro j k S r h
    obtain rfl := Except.ok.inj h
    refine ⟨?_, by simp, by simp, fun zc hzc => List.mem_append_right _ (List.mem_map.2 ⟨zc, hzc, rfl⟩)⟩
    rw [List.map_append, List.map_map]
    refine List.nodup_append'.2 ⟨by simp, DataState.instrs_nodup hzn, ?_⟩
    intro x hx hy
    obtain ⟨q, -, rfl⟩ := List.mem_map.1 hy
    have hx : plivName q.1 = "ml_l" ∨ plivName q.1 = "ml_r" := by simpa using hx
    exact hx.elim (plivName_ne q.1).1 (plivName_ne q.1).2
  refine ⟨tuned_stores H hA hS (by simp [plivMultiSpec]) ?_ ?_, fun zc hzc => tuned_stores H hA hS ?_ ?_ ?_,
    tuned_stores H hA hS (by simp [plivMultiSpec]) ?_ ?_⟩
  · rw [← hD]
    intro j k S r h
    exact ⟨_, lookupKey_eq_of_nodup (hnd h).1 (hnd h).2.1, fun hs q hq => plainTune_at _ _ _ hq⟩
  · rw [← hD]
    rintro c' o hc rfl he ho
    exact (C26_pliv_multi hc hzn ho).1 he
  · refine List.mem_append_right _ (List.mem_map.2 ⟨zc.1, ?_, rfl⟩)
    have := (List.of_mem_zip (show (zc.1, zc.2) ∈ (D.z.getD []).zip (D.zv.getD []) from hzc)).1
    rwa [hz] at this
  · rw [← hD]
    intro j k S r h
    exact ⟨_, lookupKey_eq_of_nodup (hnd h).1 ((hnd h).2.2.2 zc hzc), fun hs q hq => plainTune_at _ _ _ hq⟩
  · rw [← hD]
    rintro c' o hc rfl he ho
    exact (C26_pliv_multi hc hzn ho).2.1 zc hzc he
  · rw [← hD]
    intro j k S r h
    exact ⟨_, lookupKey_eq_of_nodup (hnd h).1 (hnd h).2.2.1, fun hs q hq => plainTune_at _ _ _ hq⟩
  · rw [← hD]
    rintro c' o hc rfl he ho
    exact (C26_pliv_multi hc hzn ho).2.2 he

/-- **C72, PLIV** that partials out the instruments only. -/
theorem C72_pliv_z {F : Frame n} {c : PlivClass n P} {T : Searches P} {onFolds : Bool}
    {s t : LinState n P} {a : FitArgs} (H : TunedFit F (plivZSpec c) (plivZTune T) onFolds s a t) {j k : ℕ}
    {tv : String} {S : List (Fold n)} (hA : At s j k tv S) (hS : SplitOk S) {D : DataState n}
    (hD : D = activeData F s.data tv) :
    UsesTuned t j k S onFolds T "ml_r" c.ml_r .predict (fun _ => True)
      (fun i => rowX D i ++ (D.zv.getD []).map fun z => z i) D.dNum id := by
  refine tuned_stores H hA hS (by simp [plivZSpec]) ?_ ?_ <;> rw [← hD]
  · intro j k S r h
    obtain rfl := Except.ok.inj h
    exact ⟨_, rfl, fun hs q hq => plainTune_at _ _ _ hq⟩
  · rintro c' o hc rfl he ho
    obtain ⟨r, h1, ho⟩ := bind_ok ho
    obtain rfl := Except.ok.inj ho
    exact ⟨_, rfl, crossFit_plain hc (ssmPart_ok h1)⟩

/-! ## Classes with nested splits -/

theorem paramAt_at {c : CellIn n P} {l : String} {q : ℕ} {a b : Option P} (h : paramAt (lookupKey l c.params).join q = .ok a)
    (hb : (c.paramsOf l).at q = b) : a = b := by
  unfold CellIn.paramsOf at hb
  generalize (lookupKey l c.params).join = ps at h hb
  cases ps with
  | none => exact (Except.ok.inj h).symm.trans hb
  | some ps =>
    unfold paramAt at h
    have hb : ps[q]? = b := hb
    dsimp only at h
    cases hq : ps[q]? with
    | none => rw [hq] at h; cases h
    | some p =>
      rw [hq] at h hb
      exact (Except.ok.inj h).symm.trans hb

theorem tuned_one {F : Frame n} {sp : LinSpec n P} {f : Search n P} {onFolds : Bool} {s : LinState n P} {j k : ℕ}
    {tv : String} {S : List (Fold n)} {c : CellIn n P} {l : String} {g : ℕ → ℕ → SearchFn P (List Cell)} {on : Fin n → Prop}
    [DecidablePred on] {x : Fin n → List Cell} {y : Fin n → ℝ} (hl : l ∈ sp.learners)
    (h : ∀ (l : String) (g : ℕ → ℕ → SearchFn P (List Cell)) (on : Fin n → Prop) [DecidablePred on] (x : Fin n → List Cell)
        (fam : (Fin n → ℝ) → Prop), l ∈ sp.learners → TunesFam f g l (activeData F s.data tv) on x fam →
        ∃ y, fam y ∧ ∀ q (hq : q < S.length),
          (c.paramsOf l).at q = some (tunedBest onFolds (g j) k q on x y S[q].train))
    (hT : TunesTask f g l (activeData F s.data tv) on x y) {q : ℕ} (hq : q < S.length) {a : Option P}
    (ha : paramAt (lookupKey l c.params).join q = .ok a) : a = some (tunedBest onFolds (g j) k q on x y S[q].train) := by
  obtain ⟨y', hy, h⟩ := h l g on x _ hl hT.fam
  obtain rfl : y' = y := hy
  exact paramAt_at ha (h q hq)

theorem taskRows_true (x : Fin n → List Cell) (y : Fin n → ℝ) (rows : List (Fin n)) :
    taskRows (fun _ => True) x y rows = rows.map fun i => (x i, y i) := by
  unfold taskRows
  simp

/-- **C72, PQ.** The propensity score is trained on what it was tuned for.  `ml_g` is tuned and trained on treated
observations with the indicator that the outcome does not exceed a value; in tuning this value is the quantile of the
treated outcomes, in `fit` it is the preliminary estimate of the fold and only the second half of the training sample is
used. -/
theorem C72_pq {F : Frame n} {c : PqClass n P} (hE : c.nested.Ok) {T : Searches P} {onFolds : Bool} {s t : LinState n P}
    {a : FitArgs} (H : TunedFit F (pqSpec c) (pqTune c T) onFolds s a t) {j k : ℕ} {tv : String} {S : List (Fold n)}
    (hA : At s j k tv S) (hS : SplitOk S) {D : DataState n} (hD : D = activeData F s.data tv) :
    ∃ g m, t.predOf j k "ml_g" = some g ∧ t.predOf j k "ml_m" = some m ∧ ∀ q (hq : q < S.length),
      ∃ (h₁ h₂ : List (Fin n)) (v : ℝ), (h₁ ++ h₂).Perm S[q].train ∧ ∀ i ∈ S[q].test,
      g i = some (zeroOne c.ml_g ⟨some (tunedBest onFolds (T "ml_g" j) k q (fun i => D.dNum i = c.treatment) (rowX D)
          (fun i => if D.yNum i ≤ quantileOf (treatedY D.yNum D.dNum c.treatment) c.q then 1 else 0) S[q].train),
        taskRows (fun i => D.dNum i = c.treatment) (rowX D) (fun i => if D.yNum i ≤ v then 1 else 0) h₂⟩ (rowX D i)) ∧
      m i = some (trim c.trimT (zeroOne c.ml_m ⟨some (tunedBest onFolds (T "ml_m" j) k q (fun _ => True) (rowX D) D.dNum
          S[q].train), taskRows (fun _ => True) (rowX D) D.dNum S[q].train⟩ (rowX D i))) := by
  obtain ⟨c', o, h1, h2, h3, h4, h5, h6⟩ := tuned_cell H hA hS
  obtain ⟨g, m, hg, hm, hr⟩ := C27_pq hE (by rw [h2]; exact hS.partition) h4 (h3 _)
  refine ⟨g, m, by rw [h5, hg], by rw [h5, hm], fun q hq => ?_⟩
  obtain ⟨h₁, h₂, v, hp, ⟨a₁, ha₁, hi₁⟩, hm'⟩ := hr q S[q] (by rw [h2, List.getElem?_eq_getElem hq])
  obtain ⟨a₂, ha₂, hi₂⟩ := hm' (h3 _)
  refine ⟨h₁, h₂, v, hp, fun i hi => ⟨?_, ?_⟩⟩
  · rw [hi₁ i hi, tuned_one (g := T "ml_g") (on := fun i => D.dNum i = c.treatment) (x := rowX D)
      (y := fun i => if D.yNum i ≤ quantileOf (treatedY D.yNum D.dNum c.treatment) c.q then 1 else 0) (by simp [pqSpec]) h6
      ?_ hq ha₁, hD, ← h1]
    · rfl
    · rw [← hD]
      intro j k S r hr
      obtain rfl := Except.ok.inj hr
      exact ⟨_, rfl, fun hs q hq => condTune_at _ _ _ _ hs hq⟩
  · rw [hi₂ i hi, tuned_one (g := T "ml_m") (on := fun _ => True) (x := rowX D) (y := D.dNum) (by simp [pqSpec]) h6
      ?_ hq ha₂, hD, ← h1, taskRows_true]
    · rfl
    · rw [← hD]
      intro j k S r hr
      obtain rfl := Except.ok.inj hr
      exact ⟨_, rfl, fun hs q hq => plainTune_at _ _ _ hq⟩

/-- **C72, CVaR.** As for PQ. -/
theorem C72_cvar {F : Frame n} {c : PqClass n P} (hE : c.nested.Ok) {T : Searches P} {onFolds : Bool} {s t : LinState n P}
    {a : FitArgs} (H : TunedFit F (cvarSpec c) (cvarTune c T) onFolds s a t) {j k : ℕ} {tv : String} {S : List (Fold n)}
    (hA : At s j k tv S) (hS : SplitOk S) {D : DataState n} (hD : D = activeData F s.data tv) :
    ∃ g m, t.predOf j k "ml_g" = some g ∧ t.predOf j k "ml_m" = some m ∧ ∀ q (hq : q < S.length),
      ∃ (h₁ h₂ : List (Fin n)) (v : ℝ), (h₁ ++ h₂).Perm S[q].train ∧ ∀ i ∈ S[q].test,
      g i = some (c.ml_g.predict (some (tunedBest onFolds (T "ml_g" j) k q (fun i => D.dNum i = c.treatment) (rowX D)
          (fun i => cvarTarget c.q (quantileOf (treatedY D.yNum D.dNum c.treatment) c.q) (D.yNum i)) S[q].train))
        (taskRows (fun i => D.dNum i = c.treatment) (rowX D) (fun i => cvarTarget c.q v (D.yNum i)) h₂) (rowX D i)) ∧
      m i = some (trim c.trimT (zeroOne c.ml_m ⟨some (tunedBest onFolds (T "ml_m" j) k q (fun _ => True) (rowX D) D.dNum
          S[q].train), taskRows (fun _ => True) (rowX D) D.dNum S[q].train⟩ (rowX D i))) := by
  obtain ⟨c', o, h1, h2, h3, h4, h5, h6⟩ := tuned_cell H hA hS
  obtain ⟨g, m, hg, hm, hr⟩ := C27_cvar hE (by rw [h2]; exact hS.partition) h4
  refine ⟨g, m, by rw [h5, hg], by rw [h5, hm], fun q hq => ?_⟩
  obtain ⟨h₁, h₂, v, hp, ⟨a₁, ha₁, hi₁⟩, ⟨a₂, ha₂, hi₂⟩⟩ := hr q S[q] (by rw [h2, List.getElem?_eq_getElem hq])
  refine ⟨h₁, h₂, v, hp, fun i hi => ⟨?_, ?_⟩⟩
  · rw [hi₁ i hi, tuned_one (g := T "ml_g") (on := fun i => D.dNum i = c.treatment) (x := rowX D)
      (y := fun i => cvarTarget c.q (quantileOf (treatedY D.yNum D.dNum c.treatment) c.q) (D.yNum i)) (by simp [cvarSpec]) h6
      ?_ hq ha₁, hD, ← h1]
    · rfl
    · rw [← hD]
      intro j k S r hr
      obtain rfl := Except.ok.inj hr
      exact ⟨_, rfl, fun hs q hq => condTune_at _ _ _ _ hs hq⟩
  · rw [hi₂ i hi, tuned_one (g := T "ml_m") (on := fun _ => True) (x := rowX D) (y := D.dNum) (by simp [cvarSpec]) h6
      ?_ hq ha₂, hD, ← h1, taskRows_true]
    · rfl
    · rw [← hD]
      intro j k S r hr
      obtain rfl := Except.ok.inj hr
      exact ⟨_, rfl, fun hs q hq => plainTune_at _ _ _ hq⟩

/-- **C72, LPQ.** The propensities are trained on what they were tuned for; for `ml_g` see `C72_pq`. -/
theorem C72_lpq {F : Frame n} {c : LpqClass n P} (hE : c.nested.Ok) {T : Searches P} {onFolds : Bool} {s t : LinState n P}
    {a : FitArgs} (H : TunedFit F (lpqSpec c) (lpqTune c T) onFolds s a t) {j k : ℕ} {tv : String} {S : List (Fold n)}
    (hA : At s j k tv S) (hS : SplitOk S) {D : DataState n} (hD : D = activeData F s.data tv) {z : Fin n → ℝ}
    (hz : D.instr = .ok z) :
    ∃ mz m0 m1 g0 g1, t.predOf j k "ml_m_z" = some mz ∧ t.predOf j k "ml_m_d_z0" = some m0 ∧
      t.predOf j k "ml_m_d_z1" = some m1 ∧ t.predOf j k "ml_g_du_z0" = some g0 ∧ t.predOf j k "ml_g_du_z1" = some g1 ∧
      ∀ q (hq : q < S.length), ∃ (h₁ h₂ : List (Fin n)) (v : ℝ), (h₁ ++ h₂).Perm S[q].train ∧ ∀ i ∈ S[q].test,
      mz i = some (zeroOne c.ml_m ⟨some (tunedBest onFolds (T "ml_m_z" j) k q (fun _ => True) (rowX D) z S[q].train),
        taskRows (fun _ => True) (rowX D) z S[q].train⟩ (rowX D i)) ∧
      m0 i = some (zeroOne c.ml_m ⟨some (tunedBest onFolds (T "ml_m_d_z0" j) k q (fun i => z i = 0) (rowX D) D.dNum S[q].train),
        taskRows (fun i => z i = 0) (rowX D) D.dNum S[q].train⟩ (rowX D i)) ∧
      m1 i = some (zeroOne c.ml_m ⟨some (tunedBest onFolds (T "ml_m_d_z1" j) k q (fun i => z i = 1) (rowX D) D.dNum S[q].train),
        taskRows (fun i => z i = 1) (rowX D) D.dNum S[q].train⟩ (rowX D i)) ∧
      g0 i = some (zeroOne c.ml_g ⟨some (tunedBest onFolds (T "ml_g_du_z0" j) k q (fun i => z i = 0) (rowX D)
          (fun i => (if D.dNum i = c.treatment then 1 else 0) *
            if D.yNum i ≤ quantileOf (treatedY D.yNum D.dNum c.treatment) c.q then 1 else 0) S[q].train),
        taskRows (fun i => z i = 0) (rowX D)
          (fun i => (if D.dNum i = c.treatment then 1 else 0) * if D.yNum i ≤ v then 1 else 0) h₂⟩ (rowX D i)) ∧
      g1 i = some (zeroOne c.ml_g ⟨some (tunedBest onFolds (T "ml_g_du_z1" j) k q (fun i => z i = 1) (rowX D)
          (fun i => (if D.dNum i = c.treatment then 1 else 0) *
            if D.yNum i ≤ quantileOf (treatedY D.yNum D.dNum c.treatment) c.q then 1 else 0) S[q].train),
        taskRows (fun i => z i = 1) (rowX D)
          (fun i => (if D.dNum i = c.treatment then 1 else 0) * if D.yNum i ≤ v then 1 else 0) h₂⟩ (rowX D i)) := by
  obtain ⟨c', o, h1, h2, h3, h4, h5, h6⟩ := tuned_cell H hA hS
  have hz' : c'.instr = .ok z := by
    rw [← hz, hD, ← h1]
    rfl
  have hr : ∀ {j k S r}, lpqTune c T j k D S = .ok r → r =
         [("ml_m_z", plainTune (T "ml_m_z" j k) (rowX D) z S),
          ("ml_m_d_z0", condTune (T "ml_m_d_z0" j k) (rowX D) D.dNum (fun i => z i = 0) S),
          ("ml_m_d_z1", condTune (T "ml_m_d_z1" j k) (rowX D) D.dNum (fun i => z i = 1) S),
          ("ml_g_du_z0", condTune (T "ml_g_du_z0" j k) (rowX D) (lpqTuneTarget c D) (fun i => z i = 0) S),
          ("ml_g_du_z1", condTune (T "ml_g_du_z1" j k) (rowX D) (lpqTuneTarget c D) (fun i => z i = 1) S)] := by
    intro j k S r h
    obtain ⟨z', hz', h⟩ := bind_ok h
    obtain rfl : z = z' := Except.ok.inj (hz.symm.trans hz')
    exact (Except.ok.inj h).symm
  obtain ⟨mz, m0, m1, g0, g1, e1, e2, e3, e4, e5, hrule⟩ := C27_lpq hE (by rw [h2]; exact hS.partition) hz' h4
    (fun h => by have := h "ml_m_z" (by simp [lpqNames]); rw [h3] at this; cases this)
  refine ⟨mz, m0, m1, g0, g1, by rw [h5, e1], by rw [h5, e2], by rw [h5, e3], by rw [h5, e4], by rw [h5, e5], fun q hq => ?_⟩
  obtain ⟨h₁, h₂, v, hp, ⟨a₁, b₁, i₁⟩, ⟨a₂, b₂, i₂⟩, ⟨a₃, b₃, i₃⟩, ⟨a₄, b₄, i₄⟩, ⟨a₅, b₅, i₅⟩⟩ :=
    hrule q S[q] (by rw [h2, List.getElem?_eq_getElem hq])
  refine ⟨h₁, h₂, v, hp, fun i hi => ⟨?_, ?_, ?_, ?_, ?_⟩⟩
  · rw [i₁ i hi, tuned_one (g := T "ml_m_z") (on := fun _ => True) (x := rowX D) (y := z) (by simp [lpqSpec, lpqNames]) h6
      ?_ hq b₁, hD, ← h1, taskRows_true]
    rw [← hD]
    intro j k S r h
    rw [hr h]
    exact ⟨_, rfl, fun hs q hq => plainTune_at _ _ _ hq⟩
  · rw [i₂ i hi, tuned_one (g := T "ml_m_d_z0") (on := fun i => z i = 0) (x := rowX D) (y := D.dNum)
      (by simp [lpqSpec, lpqNames]) h6 ?_ hq b₂, hD, ← h1]
    · rfl
    rw [← hD]
    intro j k S r h
    rw [hr h]
    exact ⟨_, rfl, fun hs q hq => condTune_at _ _ _ _ hs hq⟩
  · rw [i₃ i hi, tuned_one (g := T "ml_m_d_z1") (on := fun i => z i = 1) (x := rowX D) (y := D.dNum)
      (by simp [lpqSpec, lpqNames]) h6 ?_ hq b₃, hD, ← h1]
    · rfl
    rw [← hD]
    intro j k S r h
    rw [hr h]
    exact ⟨_, rfl, fun hs q hq => condTune_at _ _ _ _ hs hq⟩
  · rw [i₄ i hi, tuned_one (g := T "ml_g_du_z0") (on := fun i => z i = 0) (x := rowX D)
      (y := fun i => (if D.dNum i = c.treatment then 1 else 0) *
            if D.yNum i ≤ quantileOf (treatedY D.yNum D.dNum c.treatment) c.q then 1 else 0)
      (by simp [lpqSpec, lpqNames]) h6 ?_ hq b₄, hD, ← h1]
    · rfl
    rw [← hD]
    intro j k S r h
    rw [hr h]
    exact ⟨_, rfl, fun hs q hq => condTune_at _ _ _ _ hs hq⟩
  · rw [i₅ i hi, tuned_one (g := T "ml_g_du_z1") (on := fun i => z i = 1) (x := rowX D)
      (y := fun i => (if D.dNum i = c.treatment then 1 else 0) *
            if D.yNum i ≤ quantileOf (treatedY D.yNum D.dNum c.treatment) c.q then 1 else 0)
      (by simp [lpqSpec, lpqNames]) h6 ?_ hq b₅, hD, ← h1]
    · rfl
    rw [← hD]
    intro j k S r h
    rw [hr h]
    exact ⟨_, rfl, fun hs q hq => condTune_at _ _ _ _ hs hq⟩

theorem rowX_length (D : DataState n) (i : Fin n) : (rowX D i).length = D.xv.length := by
  unfold rowX
  simp

/-- **C72 (violated, SSM with nonignorable nonresponse).** The parameters of `ml_m`, `ml_g_d0` and `ml_g_d1` are searched
on the covariates; the learners with these parameters are then trained on the covariates and one more column, the
estimated selection probabilities `ph`.  Whatever the data and the searches, no row of the training samples has as many
columns as a row of the samples the parameters were searched on. -/
theorem C72_violated_ssm_nonignorable {F : Frame n} {c : SsmNonClass n P} (hE : c.nested.Ok) {T : Searches P} {onFolds : Bool}
    {s t : LinState n P} {a : FitArgs} (H : TunedFit F (ssmNonSpec c) (ssmTune true T) onFolds s a t) {j k : ℕ} {tv : String}
    {S : List (Fold n)} (hA : At s j k tv S) (hS : SplitOk S) {D : DataState n} (hD : D = activeData F s.data tv)
    {w : Fin n → ℝ} (hw : D.sel = .ok w) {zs : List (Fin n → Cell)} (hz : D.zv = some zs) :
    ∃ m g0 g1, t.predOf j k "ml_m" = some m ∧ t.predOf j k "ml_g_d0" = some g0 ∧ t.predOf j k "ml_g_d1" = some g1 ∧
      ∀ q (hq : q < S.length), ∃ (h₁ h₂ l₀ l₁ : List (Fin n)) (ph : Fin n → ℝ), (h₁ ++ h₂).Perm S[q].train ∧
        (∀ i, i ∈ l₀ ↔ i ∈ h₂ ∧ D.dNum i = 0 ∧ w i = 1) ∧ (∀ i, i ∈ l₁ ↔ i ∈ h₂ ∧ D.dNum i = 1 ∧ w i = 1) ∧
        (∀ i ∈ S[q].test,
          m i = some (trim c.trimT (zeroOne c.ml_m ⟨some (tunedBest onFolds (T "ml_m" j) k q (fun _ => True) (rowX D) D.dNum
            S[q].train), h₂.map fun i => (rowX D i ++ [.num (ph i)], D.dNum i)⟩ (rowX D i ++ [.num (ph i)]))) ∧
          g0 i = some (c.ml_g.predict (some (tunedBest onFolds (T "ml_g_d0" j) k q (fun i => D.dNum i = 0 ∧ w i = 1) (rowX D)
            D.yNum S[q].train)) (l₀.map fun i => (rowX D i ++ [.num (ph i)], D.yNum i)) (rowX D i ++ [.num (ph i)])) ∧
          g1 i = some (c.ml_g.predict (some (tunedBest onFolds (T "ml_g_d1" j) k q (fun i => D.dNum i = 1 ∧ w i = 1) (rowX D)
            D.yNum S[q].train)) (l₁.map fun i => (rowX D i ++ [.num (ph i)], D.yNum i)) (rowX D i ++ [.num (ph i)]))) ∧
        ∀ i i' : Fin n, (rowX D i ++ [Cell.num (ph i)]).length ≠ (rowX D i').length := by
  obtain ⟨c', o, h1, h2, h3, h4, h5, h6⟩ := tuned_cell H hA hS
  have hs' : c'.sel = .ok w := by
    rw [← hw, hD, ← h1]
    rfl
  have hz' : c'.data.zv = some zs := by rw [h1, ← hD, hz]
  have hr : ∀ {j k S r}, ssmTune true T j k D S = .ok r →
      lookupKey "ml_m" r = some (plainTune (T "ml_m" j k) (rowX D) D.dNum S) ∧
      lookupKey "ml_g_d0" r = some (condTune (T "ml_g_d0" j k) (rowX D) D.yNum (fun i => D.dNum i = 0 ∧ w i = 1) S) ∧
      lookupKey "ml_g_d1" r = some (condTune (T "ml_g_d1" j k) (rowX D) D.yNum (fun i => D.dNum i = 1 ∧ w i = 1) S) := by
    intro j k S r h
    obtain ⟨w', hw', h⟩ := bind_ok h
    obtain rfl : w = w' := Except.ok.inj (hw.symm.trans hw')
    obtain ⟨dx, hx, h⟩ := bind_ok h
    rw [← Except.ok.inj h]
    exact ⟨rfl, rfl, rfl⟩
  obtain ⟨pi, m, g0, g1, e1, e2, e3, e4, hrule⟩ := C27_ssm_nonignorable hE (by rw [h2]; exact hS.folds) hs' hz' h4
  refine ⟨m, g0, g1, by rw [h5, e2], by rw [h5, e3], by rw [h5, e4], fun q hq => ?_⟩
  obtain ⟨h₁, h₂, l₀, l₁, ph, hp, hl₀, hl₁, -, -, -, -, ⟨a₁, b₁, i₁⟩, ⟨a₂, b₂, i₂⟩, ⟨a₃, b₃, i₃⟩⟩ :=
    hrule q S[q] (by rw [h2, List.getElem?_eq_getElem hq])
  have hdn : c'.d = D.dNum := by rw [hD, ← h1]; rfl
  refine ⟨h₁, h₂, l₀, l₁, ph, hp, fun i => by rw [hl₀, hdn], fun i => by rw [hl₁, hdn], fun i hi => ⟨?_, ?_, ?_⟩, ?_⟩
  · rw [i₁ i hi, tuned_one (g := T "ml_m") (on := fun _ => True) (x := rowX D) (y := D.dNum) (by simp [ssmNonSpec]) h6 ?_ hq b₁,
      hD, ← h1]
    · rfl
    rw [← hD]
    intro j k S r h
    exact ⟨_, (hr h).1, fun hs q hq => plainTune_at _ _ _ hq⟩
  · rw [i₂ i hi, tuned_one (g := T "ml_g_d0") (on := fun i => D.dNum i = 0 ∧ w i = 1) (x := rowX D) (y := D.yNum)
      (by simp [ssmNonSpec]) h6 ?_ hq b₂, hD, ← h1]
    · rfl
    rw [← hD]
    intro j k S r h
    exact ⟨_, (hr h).2.1, fun hs q hq => condTune_at _ _ _ _ hs hq⟩
  · rw [i₃ i hi, tuned_one (g := T "ml_g_d1") (on := fun i => D.dNum i = 1 ∧ w i = 1) (x := rowX D) (y := D.yNum)
      (by simp [ssmNonSpec]) h6 ?_ hq b₃, hD, ← h1]
    · rfl
    rw [← hD]
    intro j k S r h
    exact ⟨_, (hr h).2.2, fun hs q hq => condTune_at _ _ _ _ hs hq⟩
  · intro i i'
    simp [rowX_length]

/-! ## Concrete cases -/

/-- With one treatment, tuning on the whole sample succeeds if the search does and yields parameters for learners of the
model. -/
theorem tune_one_global {F : Frame n} {sp : LinSpec n P} {f : Search n P} {s : LinState n P} {tv : String}
    (hd : s.data.d = [tv]) {r : TuneRes P} (h : f 0 0 s.data [⟨List.finRange n, List.finRange n⟩] = .ok r)
    (hr : ∀ l ∈ tuneKeys r, l ∈ sp.learners ∧ ∃ p ps, lookupKey l r = some (p :: ps)) :
    ∃ o, (tune F sp f false true s).2 = .ok o := by
  have hact : activate F s.data 0 = .ok s.data := by
    unfold activate
    rw [hd]
    rfl
  have hset : (setAll sp tv (globalArg r) s (tuneKeys r)).2 = .ok () := by
    refine setAll_total (by rw [hd]; simp) fun l hl => ?_
    obtain ⟨h1, p, ps, h2⟩ := hr l hl
    refine ⟨h1, .dict p, ?_, trivial⟩
    unfold globalArg
    rw [h2]
  have hone : ∃ u, tuneTreatGlobal sp f true s 0 = (u, .ok r) := by
    unfold tuneTreatGlobal
    rw [h]
    dsimp only
    rw [if_pos rfl, show s.data.d.getD 0 "" = tv by rw [hd]; rfl]
    rcases hq : setAll sp tv (globalArg r) s (tuneKeys r) with ⟨u, e | v⟩
    · rw [hq] at hset; cases hset
    · exact ⟨u, rfl⟩
  obtain ⟨u, hu⟩ := hone
  unfold tune
  rw [if_neg (by simp), show List.range s.data.d.length = [0] by rw [hd]; rfl]
  unfold tuneGlobal
  rw [hact]
  dsimp only
  rw [show ({ s with data := s.data } : LinState n P) = s from rfl, hu]
  exact ⟨_, rfl⟩

/-- A search that reports how many rows it saw. -/
def exSearches : Searches ℕ := fun _ _ _ _ rows => ⟨rows.length, fun _ => 0⟩

theorem exFolds4_split : SplitOk exFolds4 := ⟨by decide, by decide⟩

/-- Tuning leads to a reached state again. -/
theorem Reached.tune {E : Ext} {F : Frame n} {sp : LinSpec n P} {D : DataState n} {tv : String} {s : LinState n P}
    (h : Reached E F sp D tv s) (f : Search n P) (onFolds setAs : Bool) :
    Reached E F sp D tv (DML.tune F sp f onFolds setAs s).1 := by
  obtain ⟨hd, start, nf, nr, dr, w, s₀, os, h1, h2, h3, rfl⟩ := h
  refine ⟨hd, start, nf, nr, dr, w, s₀, os ++ [.tune f onFolds setAs], h1, h2, h3.snoc (o := .tune f onFolds setAs) trivial, ?_⟩
  rw [mrun_snoc]
  rfl

/-- The hypotheses of `C72_irm` are met: an object with a drawn split is tuned on the whole sample and fitted; the search
for `ml_g0` saw the two untreated among the four observations, and the learner is used with what it reported. -/
example (E : Ext) (F : Frame 4) (y : Fin 4 → ℝ) : ∃ s t : LinState 4 ℕ,
    TunedFit F (irmSpec exIrm4) (irmTune exSearches) false s {} t ∧ At s 0 0 "d" exFolds4 ∧
    tunedBest false (exSearches "ml_g0" 0) 0 0 (fun i => (exData4 y).dNum i = 0) (rowX (exData4 y)) (exData4 y).yNum
      exFolds4[0].train = 2 := by
  obtain ⟨s, h1, h2, h3⟩ := exReached4 E F (sp := irmSpec exIrm4) rfl rfl y "ml_g1"
  have hd : nums (exData4 y).dv = ![(0 : ℝ), 1, 0, 1] := rfl
  obtain ⟨hR, hsd⟩ := h1.ready rfl
  have hdd : s.data.d = ["d"] := by rw [hsd]; rfl
  have hfr := tune_frame F (irmSpec exIrm4) (irmTune exSearches) false true s
  have hs' : (tune F (irmSpec exIrm4) (irmTune exSearches) false true s).1.smpls = s.smpls := by have := hfr.rest; rw [this]
  have hr' : (tune F (irmSpec exIrm4) (irmTune exSearches) false true s).1.nRep = s.nRep := by have := hfr.rest; rw [this]
  obtain ⟨a1, -⟩ := exArgs4 (sp := irmSpec exIrm4) rfl (l := "ml_g0") (by simp [irmSpec])
  refine ⟨s, _, ⟨hR, by rw [hdd]; simp, ?_, ?_, rfl, rfl, rfl⟩, ⟨by rw [hdd]; rfl, by rw [h2]; rfl⟩, ?_⟩
  · refine tune_one_global hdd rfl fun l hl => ?_
    have hl' : l = "ml_g0" ∨ l = "ml_g1" ∨ l = "ml_m" := by simpa [tuneKeys] using hl
    rcases hl' with rfl | rfl | rfl <;> exact ⟨by simp [irmSpec], _, _, rfl⟩
  · exact C63_irm rfl rfl exMeanL_compliant rfl (by rw [hd]; exact ex_d4.1) (h1.tune _ _ _) (hs'.trans h2)
      (by rw [hd]; exact ex_every ex_d4.2) ex_irm_weights (by rw [hr', h3]; exact a1)
  · have h0 : ∀ i, (exData4 y).dNum i = (![0, 1, 0, 1] : Fin 4 → ℝ) i := fun _ => rfl
    show (taskRows (fun i => (exData4 y).dNum i = 0) (rowX (exData4 y)) (exData4 y).yNum (List.finRange 4)).length = 2
    unfold taskRows
    rw [List.length_map, show List.finRange 4 = [0, 1, 2, 3] from rfl]
    simp [h0]

/-- The hypotheses of `C72_violated_ssm_nonignorable` are met: nothing fails. -/
example (E : Ext) (F : Frame 12) (y : Fin 12 → ℝ) : ∃ s t : LinState 12 ℕ,
    TunedFit F (ssmNonSpec exSsm12) (ssmTune true exSearches) false s {} t ∧ At s 0 0 "d" [exF0, exF1] ∧
    SplitOk [exF0, exF1] := by
  obtain ⟨s₀, s, -, -, h1, h2, h3, -⟩ := exReached12 E F (sp := ssmNonSpec exSsm12) rfl y exD exD 0
  obtain ⟨hR, hsd⟩ := h1.ready rfl
  have hdd : s.data.d = ["d"] := by rw [hsd]; rfl
  have hfr := tune_frame F (ssmNonSpec exSsm12) (ssmTune true exSearches) false true s
  have hs' : (tune F (ssmNonSpec exSsm12) (ssmTune true exSearches) false true s).1.smpls = s.smpls := by
    have := hfr.rest; rw [this]
  refine ⟨s, _, ⟨hR, by rw [hdd]; simp, ?_, ?_, rfl, rfl, rfl⟩, ⟨by rw [hdd]; rfl, by rw [h2]; rfl⟩, ⟨by decide, by decide⟩⟩
  · refine tune_one_global hdd (by rw [hsd]; rfl) fun l hl => ?_
    have hl' : l = "ml_g_d0" ∨ l = "ml_g_d1" ∨ l = "ml_pi" ∨ l = "ml_m" := by simpa [tuneKeys] using hl
    rcases hl' with rfl | rfl | rfl | rfl <;> exact ⟨by simp [ssmNonSpec], _, _, rfl⟩
  · exact C63_ssm_nonignorable (D := exData12 y exD exD) (zs := [fun i => .num (exD i)]) (sel := fun i => .num (exD i)) rfl rfl
      rfl (h1.tune _ _ _) (hs'.trans h2) (fun _ _ _ _ => ⟨_, rfl⟩) ⟨.inl rfl, ⟨true, rfl⟩, ⟨false, rfl⟩, .inl rfl⟩

end DML
