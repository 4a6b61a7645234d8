import Verif.TuneProps
import Verif.Evaluate

/-!
# C58: losses and evaluation of learners
-/

namespace DML

open Finset

variable {n : ℕ} {P M : Type}

/-! ## Specification -/

/-- The observations with a defined target. -/
def relevant (t : NV n) : Finset (Fin n) := univ.filter fun i => (t i).isSome

/-- Clipped probability. -/
noncomputable def clipProb (p : ℝ) : ℝ := min (1 - 1e-15) (max p 1e-15)

/-- The loss of predictions over the observations with a defined target: mean negative log likelihood for classifiers,
root mean squared error otherwise. -/
noncomputable def specLoss (cls : Bool) (p t : NV n) : ℝ :=
  if cls then
    (∑ i ∈ relevant t, -((t i).getD 0 * Real.log (clipProb ((p i).getD 0)) +
      (1 - (t i).getD 0) * Real.log (1 - clipProb ((p i).getD 0)))) / (relevant t).card
  else Real.sqrt ((∑ i ∈ relevant t, ((t i).getD 0 - (p i).getD 0) ^ 2) / (relevant t).card)

/-! ## The loss formula -/

theorem lossTerm_isSome (cls : Bool) (p t : Option ℝ) : (lossTerm cls p t).isSome = (p.isSome && t.isSome) := by
  cases p <;> cases t <;> cases cls <;> rfl

/-- **C58.** The reported loss is the loss over the observations with a defined target. -/
theorem C58_loss (cls : Bool) {p t : NV n} (hp : ∀ i, (t i).isSome → (p i).isSome) :
    lossOf cls p t = if relevant t = ∅ then none else some (specLoss cls p t) := by
  have hA : ∀ c, (univ.filter fun i => (lossTerm c (p i) (t i)).isSome) = relevant t := by
    intro c
    unfold relevant
    ext i
    simp only [mem_filter, mem_univ, true_and, lossTerm_isSome, Bool.and_eq_true]
    exact ⟨fun h => h.2, fun h => ⟨hp i h, h⟩⟩
  have hsum : ∀ c, ∑ i, (lossTerm c (p i) (t i)).getD 0 = ∑ i ∈ relevant t, (lossTerm c (p i) (t i)).getD 0 := by
    intro c
    symm
    apply sum_subset (subset_univ _)
    intro i _ hi
    have : ¬ (lossTerm c (p i) (t i)).isSome := by
      intro h
      exact hi (by rw [← hA c]; simpa using h)
    rw [Option.not_isSome_iff_eq_none.1 this]; rfl
  have hterm : ∀ c, ∀ i ∈ relevant t, (lossTerm c (p i) (t i)).getD 0 =
      if c then (t i).getD 0 * Real.log (clipProb ((p i).getD 0)) + (1 - (t i).getD 0) * Real.log (1 - clipProb ((p i).getD 0))
      else ((t i).getD 0 - (p i).getD 0) ^ 2 := by
    intro c i hi
    have h1 : (t i).isSome := by simpa [relevant] using hi
    obtain ⟨b, hb⟩ := Option.isSome_iff_exists.1 h1
    obtain ⟨a, ha⟩ := Option.isSome_iff_exists.1 (hp i h1)
    rw [ha, hb]
    cases c <;> rfl
  have hmean : ∀ c, nanmean (fun i => lossTerm c (p i) (t i)) = if relevant t = ∅ then none else
      some ((∑ i ∈ relevant t, (lossTerm c (p i) (t i)).getD 0) / (relevant t).card) := by
    intro c
    unfold nanmean
    rw [hA c, hsum c]
    simp only [card_eq_zero]
  unfold lossOf specLoss
  cases cls with
  | false =>
    have h1 := sum_congr rfl (hterm false)
    simp only [Bool.false_eq_true, if_false] at h1
    simp only [Bool.false_eq_true, if_false]
    rw [hmean false, h1]
    by_cases h : relevant t = ∅
    · rw [if_pos h, if_pos h]; rfl
    · rw [if_neg h, if_neg h]; rfl
  | true =>
    have h1 := sum_congr rfl (hterm true)
    simp only [if_true] at h1
    simp only [if_true]
    rw [hmean true, h1]
    by_cases h : relevant t = ∅
    · rw [if_pos h, if_pos h]; rfl
    · rw [if_neg h, if_neg h]
      simp only [Option.map_some, sum_neg_distrib, neg_div]

/-- **C58.** Observations without a target have no influence, whatever is predicted for them. -/
theorem C58_irrelevant (cls : Bool) {p p' t : NV n} (h : ∀ i, (t i).isSome → p i = p' i) : lossOf cls p t = lossOf cls p' t := by
  have : ∀ c i, lossTerm c (p i) (t i) = lossTerm c (p' i) (t i) := by
    intro c i
    cases ht : t i with
    | none => cases p i <;> cases p' i <;> rfl
    | some v => rw [h i (by rw [ht]; rfl)]
  unfold lossOf
  simp only [this]

/-! ## Losses after a fit -/

theorem lookupKey_of_mapM {α : Type} {f : String → Except Exc (String × α)} {ls : List String} {r : List (String × α)}
    (hf : ∀ l q, f l = .ok q → q.1 = l) (h : ls.mapM f = .ok r) {l : String} (hl : l ∈ ls) :
    ∃ v, f l = .ok (l, v) ∧ lookupKey l r = some v := by
  induction ls generalizing r with
  | nil => cases hl
  | cons a ls ih =>
    rw [List.mapM_cons] at h
    obtain ⟨q, hq, h⟩ := bind_ok h
    obtain ⟨r', hr', h⟩ := bind_ok h
    obtain rfl := Except.ok.inj h
    obtain ⟨q1, q2⟩ := q
    obtain rfl : q1 = a := hf a _ hq
    by_cases hla : l = q1
    · subst hla
      exact ⟨q2, hq, by simp [lookupKey]⟩
    · obtain ⟨v, h1, h2⟩ := ih hr' ((List.mem_cons.1 hl).resolve_left hla)
      refine ⟨v, h1, ?_⟩
      unfold lookupKey
      rw [if_neg fun h' => hla h'.symm]
      exact h2

theorem learnerLoss_ok {keys : List (String × Bool)} {preds : List (String × NV n)}
    {targets : List (String × Option (NV n))} {l : String} {q : String × Option ℝ}
    (h : learnerLoss keys preds targets l = .ok q) : q.1 = l ∧
      ∃ key, keys.filter (fun k => decide (k.1.toList <:+: l.toList)) = [key] ∧ ∃ t, lookupKey l targets = some t ∧
        ((t = none ∧ q.2 = none) ∨ ∃ t' p, t = some t' ∧ lookupKey l preds = some p ∧ q.2 = lossOf key.2 p t') := by
  unfold learnerLoss at h
  split at h
  · rename_i key hkey
    split at h
    · cases h
    · rename_i ht
      obtain rfl := Except.ok.inj h
      exact ⟨rfl, key, hkey, none, ht, Or.inl ⟨rfl, rfl⟩⟩
    · rename_i t ht
      split at h
      · cases h
      · rename_i p hp
        obtain rfl := Except.ok.inj h
        exact ⟨rfl, key, hkey, some t, ht, Or.inr ⟨t, p, rfl, hp, rfl⟩⟩
  · cases h

theorem nan_loss (cls : Bool) (p : NV n) : lossOf cls p (fun _ => none) = none := by
  have h0 : ∀ c i, lossTerm c (p i) none = none := by
    intro c i
    cases p i <;> rfl
  unfold lossOf nanmean
  simp only [h0]
  cases cls <;> simp

/-- **C58.** After a fit that stores predictions, the loss listed for a learner, treatment and repetition is the loss of
the predictions stored for exactly this learner, treatment and repetition against the targets stored for them; it is
`NaN` if no target is defined (external predictions, for instance). -/
theorem C58_listed {F : Frame n} {sp : Spec n P M} {s : MState n P M} {a : FitArgs}
    (hp : a.storePredictions = .bool true) (h : (fit F sp s a).2 = .ok ()) {j k : ℕ} (hj : j < s.data.d.length)
    (hk : k < s.nRep) {l : String} (hl : l ∈ sp.learners) :
    ∃ f losses key, (fit F sp s a).1.preds = some f ∧
      (fit F sp s a).1.loss.map (fun g => g j k) = some (some losses) ∧
      sp.keys.filter (fun q => decide (q.1.toList <:+: l.toList)) = [key] ∧
      lookupKey l losses = some (lossOf key.2 (MState.predOf f l j k) (MState.targetOf f l j k)) := by
  obtain ⟨p, m, _, hc, _⟩ := fit_ok h
  obtain ⟨hp', hm⟩ := checkFit_ok hc
  rw [hp] at hp'; cases hp'
  obtain ⟨c, o, losses, H, _, ho, hloss, _, _, _, hlo, hpr, _⟩ := fit_cells h hp hm hj hk
  have hpr := hpr rfl
  cases hf : (fit F sp s a).1.preds with
  | none => rw [hf] at hpr; cases hpr
  | some f =>
    rw [hf] at hpr
    have hfj : f j k = some (o.preds, o.targets) := Option.some.inj hpr
    obtain ⟨v, hv1, hv2⟩ := lookupKey_of_mapM (fun l q hq => (learnerLoss_ok hq).1) hloss hl
    obtain ⟨_, key, hkey, t, ht, hcase⟩ := learnerLoss_ok hv1
    refine ⟨f, losses, key, rfl, hlo, hkey, ?_⟩
    rw [hv2]
    congr 1
    have hpo : MState.predOf f l j k = (lookupKey l o.preds).getD fun _ => none := by
      unfold MState.predOf; rw [hfj]; rfl
    have hto : MState.targetOf f l j k = t.getD fun _ => none := by
      unfold MState.targetOf; rw [hfj]
      show (((lookupKey l o.targets).bind id).getD _) = _
      rw [ht]; rfl
    rcases hcase with ⟨rfl, hq⟩ | ⟨t', p, rfl, hp1, hq⟩
    · rw [hto]
      show v = _
      rw [show v = none from hq]
      exact (nan_loss _ _).symm
    · rw [hto, hpo, hp1]
      exact hq

/-! ## evaluate_learners -/

theorem mapM_range_get {α : Type} {f : ℕ → Except Exc α} {m : ℕ} {r : List α} (h : (List.range m).mapM f = .ok r) :
    r.length = m ∧ ∀ i (hi : i < r.length), f i = .ok r[i] := by
  obtain ⟨h1, h2⟩ := forall₂_getElem ((mapM_ok_iff _ _ _).1 h)
  have hl : r.length = m := by simpa using h1.symm
  refine ⟨hl, fun i hi => ?_⟩
  have := h2 i (by simpa [← hl] using hi) hi
  simpa using this

/-- **C58.** `evaluate_learners` succeeds only with learners of the model and stored predictions, and returns for every
learner, repetition `k` and treatment `j` the metric of the stored targets and predictions of this learner, repetition
and treatment. -/
theorem C58_evaluate {sp : Spec n P M} {s : MState n P M} {ls : Option (List String)} {m : Metric n}
    {r : List (String × List (List ℝ))} (h : evaluateLearners sp s ls (some m) = .ok r) :
    ∃ f, s.preds = some f ∧ (∀ l ∈ ls.getD sp.learners, l ∈ sp.learners) ∧
      ∀ l ∈ ls.getD sp.learners, ∃ rows, lookupKey l r = some rows ∧ rows.length = s.nRep ∧
        ∀ k (hk : k < rows.length), rows[k].length = s.data.d.length ∧ ∀ j (hj : j < rows[k].length),
          m (MState.targetOf f l j k) (MState.predOf f l j k) = .ok (some rows[k][j]) := by
  unfold evaluateLearners at h
  dsimp only at h
  by_cases hall : ((ls.getD sp.learners).all fun l => decide (l ∈ sp.learners)) = true
  · rw [if_pos hall] at h
    cases hf : s.preds with
    | none => rw [hf] at h; cases h
    | some f =>
      rw [hf] at h
      dsimp only at h
      refine ⟨f, rfl, by simpa using hall, fun l hl => ?_⟩
      obtain ⟨rows, h1, h2⟩ := lookupKey_of_mapM (f := evalLearner m f s.nRep s.data.d.length) (fun l q hq => by
        unfold evalLearner at hq
        obtain ⟨_, _, hq⟩ := bind_ok hq
        obtain rfl := Except.ok.inj hq
        rfl) h hl
      unfold evalLearner at h1
      obtain ⟨rows', h3, h1⟩ := bind_ok h1
      have : rows' = rows := (Prod.mk.inj (Except.ok.inj h1)).2
      subst this
      obtain ⟨h4, h5⟩ := mapM_range_get h3
      refine ⟨rows', h2, h4, fun k hk => ?_⟩
      obtain ⟨h6, h7⟩ := mapM_range_get (h5 k hk)
      refine ⟨h6, fun j hj => ?_⟩
      have h8 := h7 j hj
      unfold evalCell at h8
      split at h8
      · cases h8
      · cases h8
      · rename_i v hv
        rw [hv, Except.ok.inj h8]
  · rw [if_neg hall] at h; cases h

/-- **C58.** The default metric is the loss over the observations with a defined target. -/
theorem C58_rmse {p t : NV n} {v : Option ℝ} (h : rmse t p = .ok v) :
    v = some (specLoss false p t) ∧ v = lossOf false p t := by
  classical
  unfold rmse at h
  dsimp only at h
  by_cases h1 : (univ.filter fun i => (t i).isSome).card = 0
  · rw [if_pos h1] at h; cases h
  rw [if_neg h1] at h
  by_cases h2 : ∃ i ∈ univ.filter fun i => (t i).isSome, p i = none
  · rw [if_pos h2] at h; cases h
  rw [if_neg h2] at h
  have hv : v = some (specLoss false p t) := by
    obtain rfl := Except.ok.inj h
    rfl
  refine ⟨hv, ?_⟩
  rw [hv, C58_loss false, if_neg]
  · intro h0
    exact h1 (by rw [show (univ.filter fun i => (t i).isSome) = relevant t from rfl, h0]; rfl)
  · intro i hi
    rw [← Option.ne_none_iff_isSome]
    exact fun h0 => h2 ⟨i, by simpa using hi, h0⟩

theorem rmse_eq {p t : NV n} (h : relevant t ≠ ∅) (hp : ∀ i, (t i).isSome → (p i).isSome) :
    rmse t p = .ok (lossOf false p t) := by
  rw [C58_loss false hp, if_neg h]
  unfold rmse
  dsimp only
  rw [if_neg, if_neg]
  · rfl
  · rintro ⟨i, hi, h0⟩
    have := hp i (by simpa using hi)
    rw [h0] at this
    cases this
  · intro h0
    exact h (card_eq_zero.1 h0)

/-- **C58.** After a fit that stores predictions, `evaluate_learners()` with the default metric reports for regressors
exactly the losses listed by the model. -/
theorem C58_evaluate_matches_loss {F : Frame n} {sp : Spec n P M} {s : MState n P M} {a : FitArgs}
    (hp : a.storePredictions = .bool true) (h : (fit F sp s a).2 = .ok ()) {r : List (String × List (List ℝ))}
    (he : evaluateLearners sp (fit F sp s a).1 none (some rmse) = .ok r) {l : String} (hl : l ∈ sp.learners)
    {key : String × Bool} (hkey : sp.keys.filter (fun q => decide (q.1.toList <:+: l.toList)) = [key])
    (hreg : key.2 = false) {j k : ℕ} (hj : j < s.data.d.length) (hk : k < s.nRep) :
    ∃ rows losses, lookupKey l r = some rows ∧ (fit F sp s a).1.loss.map (fun g => g j k) = some (some losses) ∧
      lookupKey l losses = some ((rows[k]?).bind fun row => row[j]?) := by
  obtain ⟨f, losses, key', h1, h2, h3, h4⟩ := C58_listed hp h hj hk hl
  obtain ⟨f', h5, _, h6⟩ := C58_evaluate he
  rw [h1] at h5
  obtain rfl := Option.some.inj h5
  rw [hkey] at h3
  obtain rfl : key = key' := by simpa using h3
  obtain ⟨rows, h7, h8, h9⟩ := h6 l hl
  refine ⟨rows, losses, h7, h2, ?_⟩
  obtain ⟨f1, _, _, _, _⟩ := fit_frame F sp s a
  have hk' : k < rows.length := by rw [h8, f1.nRep]; exact hk
  obtain ⟨h10, h11⟩ := h9 k hk'
  have hj' : j < rows[k].length := by rw [h10, f1.data.d]; exact hj
  rw [h4, hreg, List.getElem?_eq_getElem hk']
  simp only [Option.bind_some]
  rw [List.getElem?_eq_getElem hj', (C58_rmse (h11 j hj')).2]

/-! ## The losses of PLR -/

theorem cvPredict_targets {X : Type} {L : Learner P X} {a : CvArgs n P X} {r : CvRes n P X} {y : Fin n → ℝ}
    (hm : a.method = .predict) (hy : a.y = .plain y) (hp : isPartition a.smpls = true) (h : cvPredict L a = .ok r) :
    r.targets = some fun i => some (y i) := by
  rcases a with ⟨x, y0, smpls, params, method, rt, rm⟩
  subst hm hy
  unfold cvPredict at h
  split at h
  · obtain ⟨_, _, _, _, _, _, _, h2, _⟩ := manualPredict_unfold h
    rw [h2, manualTargets_plain hp]
    rfl
  · have key : ∀ p, autoPredict L x y smpls p .predict = .ok r → r.targets = some fun i => some (y i) := by
      intro p h
      unfold autoPredict at h
      obtain ⟨_, _, h⟩ := bind_ok h
      obtain rfl := Except.ok.inj h
      rfl
    dsimp only at h
    split at h
    · rename_i y1 h1 h2
      cases h1
      exact key _ h
    · rename_i y1 p h1 h2
      cases h1
      exact key _ h
    · cases h

/-- **C58.** For PLR, whether or not predictions are stored: the loss of `ml_l` is the root mean squared error over all
observations of the out-of-fold predictions, that is of the learner with the parameters held for this treatment,
repetition and fold, trained on the training observations of the fold. -/
theorem C58_plr_loss {F : Frame n} {c : PlrClass n P} {s : MState n P (Option (List (FittedModel P (List Cell))))}
    {a : FitArgs} (hn : 0 < n) (hiv : c.iv = false) (he : a.ext = .none)
    (h : (fit F (plrSpec c) s a).2 = .ok ()) {j k : ℕ} (hj : j < s.data.d.length) (hk : k < s.nRep)
    {L : List (List (Fold n))} {S : List (Fold n)} (hs : s.smpls = some L) (hS : L[k]? = some S)
    (hpart : isPartition S = true) (hnd : ∀ f ∈ S, f.train.Nodup) :
    ∃ D : DataState n, D = activeData F s.data s.data.d[j] ∧ ∃ losses,
      (fit F (plrSpec c) s a).1.loss.map (fun g => g j k) = some (some losses) ∧
      ∀ q : Fin n → ℝ, (∀ f (hf : f < S.length), ∀ i ∈ S[f].test, q i = c.ml_l.predict (s.paramAt "ml_l" s.data.d[j] k f)
          (S[f].train.map fun i => (rowX D i, (D.yv i).val)) (rowX D i)) →
        lookupKey "ml_l" losses = some (some (Real.sqrt ((∑ i, ((D.yv i).val - q i) ^ 2) / n))) := by
  obtain ⟨p, m, _, hc, _⟩ := fit_ok h
  obtain ⟨hp, hm⟩ := checkFit_ok hc
  obtain ⟨ci, o, losses, H, _, ho, hloss, _, _, _, hlo, _⟩ := fit_cells h hp hm hj hk
  have ht : ci.treat = s.data.d[j] := by
    have := H.treat
    rw [List.getElem?_eq_getElem hj] at this
    exact (Option.some.inj this).symm
  refine ⟨_, rfl, losses, hlo, fun q hq => ?_⟩
  have hl : (plrSpec c).learners = ["ml_l", "ml_m"] := by simp [plrSpec, hiv]
  have hext : ci.extOf "ml_l" = none := by
    have := H.ext
    rw [he, hl] at this
    have := Except.ok.inj this
    unfold CellIn.extOf
    rw [← this]
    simp [lookupKey]
  have hsm : ci.smpls = S := by
    obtain ⟨L', h1, h2⟩ := H.smpls
    rw [hs] at h1
    obtain rfl := Option.some.inj h1
    rw [hS] at h2
    exact (Option.some.inj h2).symm
  have ho : plrEst c ci = .ok o := ho
  unfold plrEst at ho
  obtain ⟨rl, hrl, ho⟩ := bind_ok ho
  obtain ⟨rm, hrm, ho⟩ := bind_ok ho
  obtain ⟨rg, hrg, ho⟩ := bind_ok ho
  obtain rfl := Except.ok.inj ho
  unfold plrL at hrl
  rw [hext] at hrl
  simp only [hiv, Bool.false_and] at hrl
  rw [if_neg (by simp)] at hrl
  unfold learn at hrl
  obtain ⟨r, hr, hrl⟩ := bind_ok hrl
  obtain ⟨u, hu, hrl⟩ := bind_ok hrl
  obtain rfl := Except.ok.inj hrl
  have hd : ci.data = activeData F s.data s.data.d[j] := by rw [H.data, ht]
  have htar := cvPredict_targets rfl rfl (by rw [hsm]; exact hpart) hr
  have hpr : ∀ i, r.preds i = some (q i) := by
    intro i
    obtain ⟨f, hf, _⟩ := C26_complete hpart i
    have := C26_prediction_rule (L := c.ml_l) rfl (by rw [hsm]; exact hpart) (by rw [hsm]; exact hnd) hr f.val
      (by rw [hsm]; exact f.2) i (by simp only [hsm]; exact hf)
    rw [this, hq f.val f.2 i hf]
    simp only [Target.dataOf, hsm, hd]
    have hpar := H.paramsOf (l := "ml_l") (by rw [hl]; simp) f.val
    rw [hpar, ht]
  obtain ⟨v, hv1, hv2⟩ := lookupKey_of_mapM (fun l q hq => (learnerLoss_ok hq).1) hloss (l := "ml_l") (by rw [hl]; simp)
  obtain ⟨_, key, hkey, t, ht', hcase⟩ := learnerLoss_ok hv1
  have hkey' : key = ("ml_l", false) := by
    have h1 : ([("ml_l", false), ("ml_m", c.mClassifier)] : List (String × Bool)).filter
        (fun q => decide (q.1.toList <:+: "ml_l".toList)) = [("ml_l", false)] := by
      cases c.mClassifier <;> decide
    have hk' : (plrSpec c).keys = [("ml_l", false), ("ml_m", c.mClassifier)] := by simp [plrSpec, hiv]
    rw [hk', h1] at hkey
    simpa using hkey.symm
  subst hkey'
  have ht'' : t = r.targets := by simpa [lookupKey] using ht'.symm
  rw [htar] at ht''
  rcases hcase with ⟨h0, _⟩ | ⟨t', p', h0, hp', hv⟩
  · rw [ht''] at h0; cases h0
  · rw [ht''] at h0
    obtain rfl := Option.some.inj h0
    obtain rfl : r.preds = p' := by simpa [lookupKey] using hp'
    rw [hv2]
    dsimp only at hv
    rw [hv, C58_loss false fun i _ => by rw [hpr i]; rfl]
    have huniv : relevant (fun i => some ((ci.data.yv i).val)) = univ := by simp [relevant]
    rw [huniv, if_neg (by
      intro h0
      have : (⟨0, hn⟩ : Fin n) ∈ (univ : Finset (Fin n)) := mem_univ _
      rw [h0] at this
      simp at this)]
    have hval : specLoss false r.preds (fun i => some ((ci.data.yv i).val)) =
        Real.sqrt ((∑ i, (((activeData F s.data s.data.d[j]).yv i).val - q i) ^ 2) / n) := by
      unfold specLoss
      rw [if_neg (by simp), huniv]
      simp only [hpr, Option.getD_some, card_univ, Fintype.card_fin, hd]
    rw [hval]

/-! ## Predictions that are not stored -/

theorem fitLoop_keeps_preds {F : Frame n} {sp : Spec n P M} {ext : ExtArg} {m : Bool} (L : List (ℕ × ℕ))
    (s : MState n P M) (h : (fitLoop F sp ext false m s L).2 = .ok ()) :
    (fitLoop F sp ext false m s L).1.preds = s.preds := by
  induction L generalizing s with
  | nil => rfl
  | cons c cs ih =>
    obtain ⟨h1, h2, h3⟩ := fitLoop_cons h
    rcases c with ⟨k, j⟩
    obtain ⟨D, o, l, _, _, _, _, _, hw⟩ := fitCell_ok h1
    rw [h3, ih _ h2, hw]
    rfl

/-- **C58, violated in general.** After `fit(store_predictions=False)` the model still holds the predictions of the
previous fit: `evaluate_learners` reports what it would have reported before this fit. -/
theorem C58_violated_stale {F : Frame n} {sp : Spec n P M} {s : MState n P M} {a : FitArgs}
    (hp : a.storePredictions = .bool false) (h : (fit F sp s a).2 = .ok ()) :
    (fit F sp s a).1.preds = s.preds ∧
    ∀ ls m, evaluateLearners sp (fit F sp s a).1 ls m = evaluateLearners sp s ls m := by
  have key : (fit F sp s a).1.preds = s.preds := by
    obtain ⟨p, m, fw, hc, h2, _, h4⟩ := fit_ok h
    obtain ⟨hp', _⟩ := checkFit_ok hc
    rw [hp] at hp'; cases hp'
    rw [h4]
    exact fitLoop_keeps_preds _ _ h2
  refine ⟨key, fun ls m => ?_⟩
  obtain ⟨f1, _⟩ := fit_frame F sp s a
  have hd : (fit F sp s a).1.data.d = s.data.d := f1.data.d
  unfold evaluateLearners
  rw [key, f1.nRep, hd]

/-- A fit keeps a PLR model ready for another one. -/
theorem PlrReady.same {k : PlrClass n P} {s s' : MState n P (Option (List (FittedModel P (List Cell))))} {tv : String}
    (h : PlrReady k s tv) (hs : SameSettings s s') : PlrReady k s' tv := by
  have hd : s'.data = s.data := hs.data.active (by rw [h.treat]; simp)
  refine ⟨h.iv, by rw [hs.smplsCluster, hs.nRep]; exact h.cluster, h.regressor, ⟨?_, ?_, ?_⟩, by rw [hd]; exact h.treat, ?_, ?_, by rw [hd]; exact h.binary, h.proper⟩
  · rw [hs.nRep]; exact h.shaped.pos
  · rw [hs.nT, hd]; exact h.shaped.nT
  · rw [hs.nR, hs.nRep]; exact h.shaped.nR
  · rw [hs.smpls, hs.nRep]; exact h.split
  · rw [hs.smpls, hs.nRep, hs.params]; exact h.params

/-- Setting one dictionary keeps a PLR model ready. -/
theorem PlrReady.setDict {k : PlrClass n P} {s : MState n P (Option (List (FittedModel P (List Cell))))} {tv : String}
    (h : PlrReady k s tv) (hf : ∀ L S, s.smpls = some L → S ∈ L → S.length = s.nFolds) (l : String) (p : P) :
    PlrReady k (setNuisanceParams (plrSpec k) s l tv (.dict p)).1 tv := by
  unfold setNuisanceParams
  by_cases h1 : l ∉ (plrSpec k).learners
  · rw [if_pos h1]; exact h
  rw [if_neg h1, if_neg (by rw [h.treat]; simp)]
  cases hv : paramValue s.nRep s.nFolds (.dict p : ParamArg P) with
  | error e => exact h
  | ok v =>
    obtain ⟨h2, h3⟩ := paramValue_fit hv
    refine ⟨h.iv, h.cluster, h.regressor, ⟨h.shaped.pos, h.shaped.nT, h.shaped.nR⟩, h.treat, h.split, ?_, h.binary, h.proper⟩
    intro l' hl'
    by_cases hll : l' = l
    · refine ⟨v, ?_, h2, fun q ps hq L S hL hS => ?_⟩
      · show setNuisanceParams.set2' s.params l tv v l' tv = _
        unfold setNuisanceParams.set2'
        rw [if_pos ⟨hll, rfl⟩]
      · rw [h3 q ps hq]
        exact (hf L S hL (List.mem_of_getElem? hS)).symm
    · obtain ⟨v', h4, h5, h6⟩ := h.params l' hl'
      refine ⟨v', ?_, h5, h6⟩
      show setNuisanceParams.set2' s.params l tv v l' tv = _
      unfold setNuisanceParams.set2'
      rw [if_neg fun hh => hll hh.1]
      exact h4

/-- The loss of `ml_l` in the example model when all folds hold the parameter `p`. -/
theorem exLossVal {s : MState 2 ℕ (Option (List (FittedModel ℕ (List Cell))))} {a : FitArgs} {p : Option ℕ}
    (he : a.ext = .none) (hsm : s.smpls = some [[⟨[0], [1]⟩, ⟨[1], [0]⟩]]) (hrep : s.nRep = 1) (hd : s.data = exState)
    (hpar : ∀ f < 2, s.paramAt "ml_l" "d" 0 f = p)
    (h : (fit exFrame (plrSpec exHalf) s a).2 = .ok ()) :
    ∃ losses, (fit exFrame (plrSpec exHalf) s a).1.loss.map (fun g => g 0 0) = some (some losses) ∧
      lookupKey "ml_l" losses = some (some (Real.sqrt (((3 - (p.getD 0 : ℕ)) ^ 2 + (4 - (p.getD 0 : ℕ)) ^ 2) / 2))) := by
  have hlen : 0 < s.data.d.length := by rw [hd]; simp [exState]
  obtain ⟨D, hD, losses, h1, h2⟩ := C58_plr_loss (by norm_num) rfl he h (j := 0) (k := 0) hlen (by omega) hsm
    (by rfl) (by decide) (by simp)
  refine ⟨losses, h1, ?_⟩
  have hd0 : s.data.d[0] = "d" := by simp [hd, exState]
  have hD' : D = exState := by
    rw [hD, hd0, hd]
    simp [activeData, exState]
  rw [h2 (fun _ => ((p.getD 0 : ℕ) : ℝ))]
  · rw [hD']
    have e0 : (exState.yv 0).val = 3 := by simp [exState, exFrame, Cell.val]
    have e1 : (exState.yv 1).val = 4 := by simp [exState, exFrame, Cell.val]; norm_num
    rw [Fin.sum_univ_two, e0, e1]
    rfl
  · intro f hf i _
    have hf2 : f < 2 := by simpa using hf
    rw [hd0, hpar f hf2]
    rfl

/-- **C58, violated.** A PLR model is fitted, the parameters of `ml_l` are changed, and the model is fitted again with
`store_predictions=False`: the model lists the loss of the new fit, `√(5/2)`, but `evaluate_learners()` reports the one of
the old fit, `√(25/2)`. -/
theorem C58_violated (w : Draws 2) : ∃ s0 s1 s2 s3 : MState 2 ℕ (Option (List (FittedModel ℕ (List Cell)))),
    (∃ s, initModel (plrSpec exHalf) exState 0 (.int 2) (.int 1) (.bool true) w = .ok s ∧
      setSampleSplitting (plrSpec exHalf) s exSplit none = (s0, .ok ())) ∧
    fit exFrame (plrSpec exHalf) s0 {} = (s1, .ok ()) ∧
    setNuisanceParams (plrSpec exHalf) s1 "ml_l" "d" (.dict 5) = (s2, .ok ()) ∧
    fit exFrame (plrSpec exHalf) s2 { storePredictions := .bool false } = (s3, .ok ()) ∧
    (∃ losses, s3.loss.map (fun g => g 0 0) = some (some losses) ∧ lookupKey "ml_l" losses = some (some (Real.sqrt (5 / 2)))) ∧
    evaluateLearners (plrSpec exHalf) s3 (some ["ml_l"]) (some rmse) = .ok [("ml_l", [[Real.sqrt (25 / 2)]])] := by
  obtain ⟨s, hi, hr, hsm, hrep, hnf, hd⟩ := exReady w
  have hsp := exSplit_ok (sp := plrSpec exHalf) rfl s
  have hinit : ∀ f, (setSampleSplitting (plrSpec exHalf) s exSplit none).1.paramAt "ml_l" "d" 0 f = none := by
    intro f
    obtain ⟨l, nr, nf, c, h1, h2, h3⟩ := setSampleSplitting_ok hsp
    rw [h3]
    unfold MState.paramAt
    show (initParams (plrSpec exHalf).learners s.data.d nr "ml_l" "d").bind _ = none
    unfold initParams
    split
    · rcases nr with _ | nr <;> simp [List.replicate_succ]
    · rfl
  have hpair : setSampleSplitting (plrSpec exHalf) s exSplit none =
      ((setSampleSplitting (plrSpec exHalf) s exSplit none).1, .ok ()) := by rw [← hsp]
  generalize (setSampleSplitting (plrSpec exHalf) s exSplit none).1 = s0 at *
  have hfit := plr_fit_succeeds (F := exFrame) hr (a := {}) (p := true) (m := false) rfl rfl rfl rfl
  obtain ⟨f1, _, _, f4, _⟩ := fit_frame exFrame (plrSpec exHalf) s0 {}
  obtain ⟨losses, hl1, hl2⟩ := exLossVal (p := none) rfl hsm hrep hd (fun f _ => hinit f) hfit
  have hlen : 0 < s0.data.d.length := by rw [hd]; simp [exState]
  obtain ⟨f, losses', key, hf, hl3, hkey, hl4⟩ := C58_listed (a := {}) rfl hfit (j := 0) (k := 0) hlen (by omega)
    (l := "ml_l") (by simp [plrSpec, exHalf])
  have hkey' : key.2 = false := by
    have h1 : ([("ml_l", false), ("ml_m", false)] : List (String × Bool)).filter
        (fun q => decide (q.1.toList <:+: "ml_l".toList)) = [("ml_l", false)] := by decide
    have hk' : (plrSpec exHalf).keys = [("ml_l", false), ("ml_m", false)] := by simp [plrSpec, exHalf]
    rw [hk', h1] at hkey
    have : ("ml_l", false) = key := by simpa using hkey
    rw [← this]
  obtain ⟨D, _, preds, targets, hpr, q, hq, hqv⟩ := C45_plr_prediction (a := {}) rfl rfl rfl hfit (j := 0) (k := 0) hlen
    (by omega) hsm (by rfl) (by decide) (by simp)
  have hpo : ∀ i, (MState.predOf f "ml_l" 0 0 i).isSome := by
    intro i
    rw [hf] at hpr
    have hpr : f 0 0 = some (preds, targets) := Option.some.inj hpr
    unfold MState.predOf
    rw [hpr]
    simp only [Option.bind_some, hq, Option.getD_some]
    match i with
    | 0 => rw [hqv 1 (by simp) 0 (by simp)]; rfl
    | 1 => rw [hqv 0 (by simp) 1 (by simp)]; rfl
  have hval : lossOf false (MState.predOf f "ml_l" 0 0) (MState.targetOf f "ml_l" 0 0) = some (Real.sqrt (25 / 2)) := by
    rw [hl1] at hl3
    obtain rfl := Option.some.inj (Option.some.inj hl3)
    rw [hl2, hkey'] at hl4
    rw [← Option.some.inj hl4]
    norm_num
  have hrm : rmse (MState.targetOf f "ml_l" 0 0) (MState.predOf f "ml_l" 0 0) = .ok (some (Real.sqrt (25 / 2))) := by
    rw [← hval]
    refine rmse_eq (fun h0 => ?_) fun i _ => hpo i
    rw [C58_loss false fun i _ => hpo i, if_pos h0] at hval
    cases hval
  have hset : (setNuisanceParams (plrSpec exHalf) (fit exFrame (plrSpec exHalf) s0 {}).1 "ml_l" "d" (.dict 5)).2 = .ok () := by
    refine (C45_accepted_iff _ _ _ _ _).2 ⟨by simp [plrSpec, exHalf], ?_, trivial⟩
    rw [f1.data.d, hd]; simp [exState]
  have hev : evaluateLearners (plrSpec exHalf) (fit exFrame (plrSpec exHalf) s0 {}).1 (some ["ml_l"]) (some rmse) =
      .ok [("ml_l", [[Real.sqrt (25 / 2)]])] := by
    have e1 : evalCell rmse f "ml_l" 0 0 = .ok (Real.sqrt (25 / 2)) := by unfold evalCell; rw [hrm]
    have e2 : (fit exFrame (plrSpec exHalf) s0 {}).1.nRep = 1 := by rw [f1.nRep, hrep]
    have e3 : (fit exFrame (plrSpec exHalf) s0 {}).1.data.d.length = 1 := by rw [f1.data.d, hd]; rfl
    unfold evaluateLearners
    simp only
    rw [if_pos (by simp [plrSpec, exHalf]), hf, e2, e3]
    simp [evalLearner, List.range_succ, e1, bind, Except.bind, pure, Except.pure]
  have hr1 := hr.same f1
  obtain ⟨g1, _, g3⟩ := C45_set _ _ _ _ _ hset
  have hr2 := hr1.setDict (l := "ml_l") (p := 5) (fun L S hL hS => by
    rw [f1.smpls, hsm] at hL
    obtain rfl := Option.some.inj hL
    rw [f4, hnf]
    simp only [List.mem_cons, List.not_mem_nil, or_false] at hS
    subst hS; rfl)
  have hd1 : (fit exFrame (plrSpec exHalf) s0 {}).1.data = exState := by
    rw [f1.data.active (by rw [hd]; simp [exState]), hd]
  have hp1 : fit exFrame (plrSpec exHalf) s0 {} = ((fit exFrame (plrSpec exHalf) s0 {}).1, .ok ()) := by rw [← hfit]
  have hsm1 := f1.smpls.trans hsm
  have hrep1 := f1.nRep.trans hrep
  have hnf1 := f4.trans hnf
  generalize (fit exFrame (plrSpec exHalf) s0 {}).1 = s1 at *
  have hp2 : setNuisanceParams (plrSpec exHalf) s1 "ml_l" "d" (.dict 5) =
      ((setNuisanceParams (plrSpec exHalf) s1 "ml_l" "d" (.dict 5)).1, .ok ()) := by rw [← hset]
  generalize (setNuisanceParams (plrSpec exHalf) s1 "ml_l" "d" (.dict 5)).1 = s2 at *
  have hfit2 := plr_fit_succeeds (F := exFrame) hr2 (a := { storePredictions := .bool false }) (p := false) (m := false)
    rfl rfl rfl rfl
  obtain ⟨losses2, hm1, hm2⟩ := exLossVal (p := some 5) rfl (by rw [g3]; exact hsm1) (by rw [g3]; exact hrep1)
    (by rw [g3]; exact hd1) (fun f hf => by
      rw [g1 0 (by omega) f (by omega)]; rfl) hfit2
  refine ⟨s0, s1, s2, _, ⟨s, hi, hpair⟩, hp1, hp2, by rw [← hfit2], ⟨losses2, hm1, ?_⟩, ?_⟩
  · rw [hm2]; norm_num
  · rw [(C58_violated_stale rfl hfit2).2, ← hev]
    have e : s2 = { s1 with params := s2.params } := g3
    unfold evaluateLearners
    rw [show s2.preds = s1.preds by rw [e], show s2.nRep = s1.nRep by rw [e], show s2.data = s1.data by rw [e]]

end DML
