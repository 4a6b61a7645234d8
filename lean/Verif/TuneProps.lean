import Verif.PlrFitProps
import Verif.PlrTune
import Verif.DrawSplitProps

/-!
# C44: tuning
-/

namespace DML

open Finset

variable {n : ℕ} {P M : Type}

/-! ## Specification -/

/-- `r` is the result of the search for treatment number `j` in repetition `k`: on the data with this treatment active
and the folds of this repetition. -/
def FoldResult (F : Frame n) (f : Search n P) (s : MState n P M) (j k : ℕ) (r : TuneRes P) : Prop :=
  ∃ tv S, s.data.d[j]? = some tv ∧ (s.smpls.bind fun L => L[k]?) = some S ∧ f j k (activeData F s.data tv) S = .ok r

/-- `r` is the result of the search for treatment number `j` on the whole sample. -/
def GlobalResult (F : Frame n) (f : Search n P) (s : MState n P M) (j : ℕ) (r : TuneRes P) : Prop :=
  ∃ tv, s.data.d[j]? = some tv ∧ f j 0 (activeData F s.data tv) [⟨List.finRange n, List.finRange n⟩] = .ok r

/-- A search tunes exactly the learners of the class and returns one parameter set per training set. -/
def Search.Complete (f : Search n P) (learners : List String) : Prop :=
  ∀ j k D S r, f j k D S = .ok r → r.map Prod.fst = learners ∧ ∀ q ∈ r, q.2.length = S.length

/-! ## The loops -/

theorem repSmpls_eq {s : MState n P M} {k : ℕ} {S : List (Fold n)} :
    repSmpls s k = .ok S ↔ (s.smpls.bind fun L => L[k]?) = some S := by
  unfold repSmpls
  cases s.smpls with
  | none => exact ⟨fun h => (by cases h), fun h => (by cases h)⟩
  | some L =>
    simp only [Option.bind_some]
    cases L[k]? with
    | none => exact ⟨fun h => (by cases h), fun h => (by cases h)⟩
    | some S' => exact ⟨fun h => by rw [Except.ok.inj h], fun h => by rw [Option.some.inj h]⟩

theorem TuneTable.set_ok {t t' : TuneTable P} {i j : ℕ} {v : TuneRes P} (h : t.set i j v = .ok t') :
    i < t.rows ∧ j < t.row.length ∧ t' = { t with row := t.row.set j (some v) } := by
  unfold TuneTable.set at h
  by_cases h1 : i < t.rows
  · rw [if_pos h1] at h
    by_cases h2 : j < t.row.length
    · rw [if_pos h2] at h
      exact ⟨h1, h2, (Except.ok.inj h).symm⟩
    · rw [if_neg h2] at h; cases h
  · rw [if_neg h1] at h; cases h

theorem tuneReps_ok {f : ℕ → List (Fold n) → Except Exc (TuneRes P)} {s : MState n P M} {j : ℕ} {ks : List ℕ}
    {t t' : TuneTable P} {rs : List (TuneRes P)} (h : tuneReps f s j ks t = .ok (t', rs)) :
    List.Forall₂ (fun k r => ∃ S, repSmpls s k = .ok S ∧ f k S = .ok r) ks rs ∧
    (∀ k ∈ ks, k < t.rows ∧ j < t.row.length) ∧ t'.rows = t.rows ∧ t'.row.length = t.row.length ∧
    (∀ r, rs.getLast? = some r → t'.row[j]? = some (some r)) ∧ ∀ i, i ≠ j → t'.row[i]? = t.row[i]? := by
  induction ks generalizing t t' rs with
  | nil =>
    obtain ⟨rfl, rfl⟩ := Prod.mk.inj (Except.ok.inj h)
    exact ⟨.nil, by simp, rfl, rfl, by simp, fun _ _ => rfl⟩
  | cons k ks ih =>
    unfold tuneReps at h
    obtain ⟨S, hS, h⟩ := bind_ok h
    obtain ⟨r, hr, h⟩ := bind_ok h
    obtain ⟨t1, ht1, h⟩ := bind_ok h
    obtain ⟨⟨t2, rs2⟩, h2, h⟩ := bind_ok h
    obtain ⟨rfl, rfl⟩ := Prod.mk.inj (Except.ok.inj h)
    obtain ⟨a1, a2, rfl⟩ := TuneTable.set_ok ht1
    obtain ⟨b1, b2, b3, b4, b5, b6⟩ := ih h2
    refine ⟨.cons ⟨S, hS, hr⟩ b1, ?_, b3, by rw [b4]; simp, ?_, ?_⟩
    · intro k' hk'
      rcases List.mem_cons.1 hk' with rfl | hk'
      · exact ⟨a1, a2⟩
      · exact ⟨(b2 k' hk').1, a2⟩
    · intro r' hr'
      cases ks with
      | nil =>
        obtain ⟨rfl, rfl⟩ := Prod.mk.inj (Except.ok.inj h2)
        simp only [List.getLast?_singleton, Option.some.injEq] at hr'
        subst hr'
        simp [a2]
      | cons k2 ks2 =>
        have hl := b1.length_eq
        obtain ⟨r2, rs3, rfl⟩ : ∃ a l, rs2 = a :: l := by
          cases rs2 with
          | nil => simp at hl
          | cons a l => exact ⟨a, l, rfl⟩
        rw [List.getLast?_cons_cons] at hr'
        exact b5 r' hr'
    · intro i hi
      rw [b6 i hi]
      simp [hi.symm]

theorem setAll_ok {sp : Spec n P M} {tv : String} {arg : String → Except Exc (ParamArg P)} {s : MState n P M}
    {ls : List String} (h : (setAll sp tv arg s ls).2 = .ok ()) :
    (∀ l ∈ ls, ∃ a, arg l = .ok a ∧ ∀ k < s.nRep, ∀ i < s.nFolds,
      (setAll sp tv arg s ls).1.paramAt l tv k i = a.at k i) ∧
    ∀ l tv', (tv' ≠ tv ∨ l ∉ ls) → (setAll sp tv arg s ls).1.params l tv' = s.params l tv' := by
  induction ls generalizing s with
  | nil => exact ⟨by simp, fun _ _ _ => rfl⟩
  | cons l ls ih =>
    have hfr := fun a => setNuisanceParams_frame sp s l tv a
    unfold setAll at h ⊢
    cases ha : arg l with
    | error e => rw [ha] at h; cases h
    | ok a =>
      simp only [ha] at h ⊢
      have hset := C45_set sp s l tv a
      have hfr := hfr a
      rcases hq : setNuisanceParams sp s l tv a with ⟨t, (e | u)⟩
      · rw [hq] at h; cases h
      · rw [hq] at h hset hfr
        dsimp only at hset hfr
        obtain ⟨c1, c2, c3⟩ := hset rfl
        have hr : t.nRep = s.nRep := by have := hfr.rest; rw [this]
        have hf : t.nFolds = s.nFolds := by have := hfr.rest; rw [this]
        obtain ⟨d1, d2⟩ := ih h
        refine ⟨?_, ?_⟩
        · intro l' hl'
          by_cases hm : l' ∈ ls
          · obtain ⟨a', ha', hv⟩ := d1 l' hm
            refine ⟨a', ha', fun k hk i hi => hv k (by rw [hr]; exact hk) i (by rw [hf]; exact hi)⟩
          · obtain rfl : l' = l := by
              rcases List.mem_cons.1 hl' with h' | h'
              · exact h'
              · exact absurd h' hm
            refine ⟨a, ha, fun k hk i hi => ?_⟩
            have e := d2 l' tv (Or.inr hm)
            show MState.paramAt _ l' tv k i = _
            unfold MState.paramAt
            rw [e]
            exact c1 k hk i hi
        · intro l' tv' hor
          rw [d2 l' tv' (hor.imp_right fun h' => fun h'' => h' (List.mem_cons_of_mem _ h''))]
          refine c2 l' tv' ?_
          rcases hor with h' | h'
          · exact Or.inr h'
          · exact Or.inl fun h'' => h' (h'' ▸ List.mem_cons_self ..)

theorem foldArg_ok {rs : List (TuneRes P)} {l : String} {a : ParamArg P} (h : foldArg rs l = .ok a) (k i : ℕ) :
    a.at k i = (rs[k]?).bind fun r => (lookupKey l r).bind fun ps => ps[i]? := by
  unfold foldArg at h
  obtain ⟨ps, hps, h⟩ := bind_ok h
  obtain rfl := Except.ok.inj h
  clear * - hps
  simp only [ParamArg.at]
  induction rs generalizing ps k with
  | nil =>
    simp only [List.mapM_nil, pure, Except.pure] at hps
    obtain rfl := Except.ok.inj hps
    simp
  | cons r rs ih =>
    rw [List.mapM_cons] at hps
    obtain ⟨p, hp, hps⟩ := bind_ok hps
    unfold foldArg.entry at hp
    obtain ⟨ps', hps', hps⟩ := bind_ok hps
    obtain rfl := Except.ok.inj hps
    cases k with
    | zero =>
      cases hl : lookupKey l r with
      | none => rw [hl] at hp; cases hp
      | some q =>
        rw [hl] at hp
        obtain rfl := Except.ok.inj hp
        simp [hl]
    | succ k => simpa using ih k ps' hps'

/-- What one pass of fold-wise tuning over the treatments `js` yields. -/
theorem tuneFolds_ok {F : Frame n} {sp : Spec n P M} {f : Search n P} {b : Bool} {js : List ℕ} {s s' : MState n P M}
    {t t' : TuneTable P} (hr : 0 < s.nRep) (hd : s.data.d.Nodup) (hjs : js.Nodup)
    (h : tuneFolds F sp f b s js t = (s', .ok t')) :
    t'.rows = t.rows ∧ t'.row.length = t.row.length ∧ (∀ i ∉ js, t'.row[i]? = t.row[i]?) ∧
    (∀ i ∉ js, ∀ tv, s.data.d[i]? = some tv → ∀ l, s'.params l tv = s.params l tv) ∧
    ∀ j ∈ js, (∀ k < s.nRep, k < t.rows ∧ j < t.row.length) ∧
      ∃ tv, s.data.d[j]? = some tv ∧ ∃ rs : List (TuneRes P), rs.length = s.nRep ∧
        (∀ k < s.nRep, ∃ r, rs[k]? = some r ∧ FoldResult F f s j k r) ∧
        (∀ r, rs.getLast? = some r → t'.row[j]? = some (some r)) ∧
        (b = true → ∀ r₀, rs[0]? = some r₀ → ∀ l ∈ tuneKeys r₀, ∀ k < s.nRep, ∀ i < s.nFolds,
          s'.paramAt l tv k i = (rs[k]?).bind fun r => (lookupKey l r).bind fun ps => ps[i]?) := by
  induction js generalizing s t with
  | nil =>
    obtain ⟨rfl, h0⟩ := Prod.mk.inj h
    obtain rfl := Except.ok.inj h0
    exact ⟨rfl, rfl, fun _ _ => rfl, fun _ _ _ _ _ => rfl, by simp⟩
  | cons j js ih =>
    obtain ⟨hj, hjs⟩ := List.nodup_cons.1 hjs
    unfold tuneFolds at h
    cases ha : activate F s.data j with
    | error e => rw [ha] at h; cases (Prod.mk.inj h).2
    | ok D =>
      rw [ha] at h
      dsimp only at h
      have hfr := (activate_frame (s := s) ha).trans (tuneTreatFolds_frame sp f b { s with data := D } j t)
      rcases hq : tuneTreatFolds sp f b { s with data := D } j t with ⟨u, (e | t1)⟩
      · rw [hq] at h; cases (Prod.mk.inj h).2
      rw [hq] at h hfr
      dsimp only at h hfr
      have hurep : u.nRep = s.nRep := by have := hfr.rest; rw [this]
      have hufold : u.nFolds = s.nFolds := by have := hfr.rest; rw [this]
      have husm : u.smpls = s.smpls := by have := hfr.rest; rw [this]
      have hud : u.data.d = s.data.d := hfr.data.d
      obtain ⟨g1, g2, g3, g4, g5⟩ := ih (s := u) (t := t1) (by rw [hurep]; exact hr) (by rw [hud]; exact hd) hjs h
      obtain ⟨tv, htv, rfl⟩ := activate_ok ha
      have hsd : (activeData F s.data tv).d = s.data.d := (activeData_same F s.data tv).d
      -- the treatment at hand
      unfold tuneTreatFolds at hq
      rcases hrp : tuneReps (fun k => f j k (activeData F s.data tv)) { s with data := activeData F s.data tv } j
        (List.range s.nRep) t with e | ⟨t2, rs⟩
      · rw [hrp] at hq; cases (Prod.mk.inj hq).2
      rw [hrp] at hq
      dsimp only at hq
      obtain ⟨b1, b2, b3, b4, b5, b6⟩ := tuneReps_ok hrp
      have hlen : rs.length = s.nRep := by simpa using b1.length_eq.symm
      have hres : ∀ k < s.nRep, ∃ r, rs[k]? = some r ∧ FoldResult F f s j k r := by
        intro k hk
        have hk' : k < rs.length := by omega
        refine ⟨rs[k], List.getElem?_eq_getElem hk', ?_⟩
        obtain ⟨S, hS, hf⟩ := b1.get (i := k) (by simpa using hk) hk'
        refine ⟨tv, S, htv, ?_, ?_⟩
        · have := repSmpls_eq.1 hS
          simpa using this
        · simpa using hf
      have hnone : rs ≠ [] := by
        intro h0; rw [h0] at hlen; simp at hlen; omega
      obtain ⟨r₁, rs₁, rfl⟩ := List.exists_cons_of_ne_nil hnone
      have hgetD : (activeData F s.data tv).d.getD j "" = tv := by rw [hsd, List.getD, htv]; rfl
      -- what happened to the parameters
      have hpar : t1 = t2 ∧ (∀ l tv', tv' ≠ tv → u.params l tv' = s.params l tv') ∧
          (b = true → ∀ l ∈ tuneKeys r₁, ∀ k < s.nRep, ∀ i < s.nFolds,
            u.paramAt l tv k i = ((r₁ :: rs₁)[k]?).bind fun r => (lookupKey l r).bind fun ps => ps[i]?) := by
        cases b with
        | false =>
          obtain ⟨rfl, h0⟩ := Prod.mk.inj hq
          obtain rfl := Except.ok.inj h0
          exact ⟨rfl, fun _ _ _ => rfl, fun h0 => (by cases h0)⟩
        | true =>
          rw [if_pos rfl] at hq
          dsimp only at hq
          rw [hgetD] at hq
          rcases hs : setAll sp tv (foldArg (r₁ :: rs₁)) { s with data := activeData F s.data tv } (tuneKeys r₁) with
            ⟨u', (e | x)⟩
          · rw [hs] at hq; cases (Prod.mk.inj hq).2
          rw [hs] at hq
          obtain ⟨rfl, h0⟩ := Prod.mk.inj hq
          obtain rfl := Except.ok.inj h0
          obtain ⟨c1, c2⟩ := setAll_ok (sp := sp) (tv := tv) (arg := foldArg (r₁ :: rs₁))
            (s := { s with data := activeData F s.data tv }) (ls := tuneKeys r₁) (by rw [hs])
          rw [hs] at c1 c2
          refine ⟨rfl, fun l tv' hne => c2 l tv' (Or.inl hne), fun _ l hl k hk i hi => ?_⟩
          obtain ⟨a, ha', hv⟩ := c1 l hl
          rw [← foldArg_ok ha' k i]
          exact hv k hk i hi
      obtain ⟨rfl, hp1, hp2⟩ := hpar
      have hinj : ∀ i tv', i ≠ j → s.data.d[i]? = some tv' → tv' ≠ tv := by
        rintro i tv' hne hi rfl
        refine hne ?_
        obtain ⟨hi1, hi2⟩ := List.getElem?_eq_some_iff.1 hi
        obtain ⟨hj1, hj2⟩ := List.getElem?_eq_some_iff.1 htv
        exact (List.Nodup.getElem_inj_iff hd).1 (hi2.trans hj2.symm)
      refine ⟨g1.trans b3, g2.trans b4, ?_, ?_, ?_⟩
      · intro i hi
        rw [g3 i fun h' => hi (List.mem_cons_of_mem _ h'), b6 i fun h' => hi (h' ▸ List.mem_cons_self ..)]
      · intro i hi tv' htv' l
        rw [g4 i (fun h' => hi (List.mem_cons_of_mem _ h')) tv' (by rw [hud]; exact htv') l,
          hp1 l tv' (hinj i tv' (fun h' => hi (h' ▸ List.mem_cons_self ..)) htv')]
      · intro i hi
        by_cases hij : i = j
        · subst hij
          refine ⟨fun k hk => b2 k (List.mem_range.2 hk), tv, htv, r₁ :: rs₁, hlen, hres, ?_, ?_⟩
          · intro r hr'
            rw [g3 i hj]
            exact b5 r hr'
          · intro hb r₀ hr₀ l hl k hk q hq'
            simp only [List.getElem?_cons_zero, Option.some.injEq] at hr₀
            subst hr₀
            rw [← hp2 hb l hl k hk q hq']
            unfold MState.paramAt
            rw [g4 i hj tv (by rw [hud]; exact htv) l]
        · have hi' : i ∈ js := by
            rcases List.mem_cons.1 hi with h' | h'
            · exact absurd h' hij
            · exact h'
          obtain ⟨e1, tv', htv', rs', e2, e3, e4, e5⟩ := g5 i hi'
          rw [hurep, b3, b4] at e1
          rw [hurep] at e2 e3 e5
          rw [hufold] at e5
          rw [hud] at htv'
          refine ⟨e1, tv', htv', rs', e2, ?_, e4, e5⟩
          intro k hk
          obtain ⟨r, hr1, tv'', S, x1, x2, x3⟩ := e3 k hk
          refine ⟨r, hr1, tv'', S, by rw [← hud]; exact x1, by rw [← husm]; exact x2, ?_⟩
          rw [← activeData_congr F hfr.data]; exact x3

/-- What one pass of global tuning over the treatments `js` yields. -/
theorem tuneGlobal_ok {F : Frame n} {sp : Spec n P M} {f : Search n P} {b : Bool} {js : List ℕ} {s s' : MState n P M}
    {acc out : List (TuneRes P)} (hd : s.data.d.Nodup) (hjs : js.Nodup)
    (h : tuneGlobal F sp f b s js acc = (s', .ok out)) :
    (∃ rs, out = acc ++ rs ∧ List.Forall₂ (fun j r => GlobalResult F f s j r) js rs) ∧
    (∀ i ∉ js, ∀ tv, s.data.d[i]? = some tv → ∀ l, s'.params l tv = s.params l tv) ∧
    (b = true → ∀ j ∈ js, ∃ tv, s.data.d[j]? = some tv ∧ ∃ r, GlobalResult F f s j r ∧
      ∀ l ∈ tuneKeys r, ∀ k < s.nRep, ∀ i < s.nFolds, s'.paramAt l tv k i = (lookupKey l r).bind fun ps => ps[0]?) := by
  induction js generalizing s acc with
  | nil =>
    obtain ⟨rfl, h0⟩ := Prod.mk.inj h
    obtain rfl := Except.ok.inj h0
    exact ⟨⟨[], by simp, .nil⟩, fun _ _ _ _ _ => rfl, by simp⟩
  | cons j js ih =>
    obtain ⟨hj, hjs⟩ := List.nodup_cons.1 hjs
    unfold tuneGlobal at h
    cases ha : activate F s.data j with
    | error e => rw [ha] at h; cases (Prod.mk.inj h).2
    | ok D =>
      rw [ha] at h
      dsimp only at h
      have hfr := (activate_frame (s := s) ha).trans (tuneTreatGlobal_frame sp f b { s with data := D } j)
      rcases hq : tuneTreatGlobal sp f b { s with data := D } j with ⟨u, (e | r)⟩
      · rw [hq] at h; cases (Prod.mk.inj h).2
      rw [hq] at h hfr
      dsimp only at h hfr
      have hurep : u.nRep = s.nRep := by have := hfr.rest; rw [this]
      have hufold : u.nFolds = s.nFolds := by have := hfr.rest; rw [this]
      have hud : u.data.d = s.data.d := hfr.data.d
      obtain ⟨⟨rs, g1, g2⟩, g3, g4⟩ := ih (s := u) (by rw [hud]; exact hd) hjs h
      obtain ⟨tv, htv, rfl⟩ := activate_ok ha
      have hsd : (activeData F s.data tv).d = s.data.d := (activeData_same F s.data tv).d
      have hgetD : (activeData F s.data tv).d.getD j "" = tv := by rw [hsd, List.getD, htv]; rfl
      have back : ∀ i r, GlobalResult F f u i r → GlobalResult F f s i r := by
        rintro i r ⟨tv', x1, x2⟩
        exact ⟨tv', by rw [← hud]; exact x1, by rw [← activeData_congr F hfr.data]; exact x2⟩
      unfold tuneTreatGlobal at hq
      cases hres : f j 0 (activeData F s.data tv) [⟨List.finRange n, List.finRange n⟩] with
      | error e => rw [hres] at hq; cases (Prod.mk.inj hq).2
      | ok r' =>
      rw [hres] at hq
      dsimp only at hq
      have hpar : r' = r ∧ (∀ l tv', tv' ≠ tv → u.params l tv' = s.params l tv') ∧
          (b = true → ∀ l ∈ tuneKeys r, ∀ k < s.nRep, ∀ i < s.nFolds,
            u.paramAt l tv k i = (lookupKey l r).bind fun ps => ps[0]?) := by
        cases b with
        | false =>
          obtain ⟨rfl, h0⟩ := Prod.mk.inj hq
          exact ⟨Except.ok.inj h0, fun _ _ _ => rfl, fun h0 => (by cases h0)⟩
        | true =>
          rw [if_pos rfl] at hq
          rw [hgetD] at hq
          rcases hs : setAll sp tv (globalArg r') { s with data := activeData F s.data tv } (tuneKeys r') with
            ⟨u', (e | x)⟩
          · rw [hs] at hq; cases (Prod.mk.inj hq).2
          rw [hs] at hq
          obtain ⟨rfl, h0⟩ := Prod.mk.inj hq
          obtain rfl := Except.ok.inj h0
          obtain ⟨c1, c2⟩ := setAll_ok (sp := sp) (tv := tv) (arg := globalArg r')
            (s := { s with data := activeData F s.data tv }) (ls := tuneKeys r') (by rw [hs])
          rw [hs] at c1 c2
          refine ⟨rfl, fun l tv' hne => c2 l tv' (Or.inl hne), fun _ l hl k hk i hi => ?_⟩
          obtain ⟨a, ha', hv⟩ := c1 l hl
          have e : a.at k i = (lookupKey l r').bind fun ps => ps[0]? := by
            unfold globalArg at ha'
            rcases hl' : lookupKey l r' with _ | (_ | ⟨p, ps⟩)
            · rw [hl'] at ha'; cases ha'
            · rw [hl'] at ha'; cases ha'
            · rw [hl'] at ha'
              obtain rfl := Except.ok.inj ha'
              simp [ParamArg.at]
          rw [← e]
          exact hv k hk i hi
      obtain ⟨rfl, hp1, hp2⟩ := hpar
      have hinj : ∀ i tv', i ≠ j → s.data.d[i]? = some tv' → tv' ≠ tv := by
        rintro i tv' hne hi rfl
        refine hne ?_
        obtain ⟨hi1, hi2⟩ := List.getElem?_eq_some_iff.1 hi
        obtain ⟨hj1, hj2⟩ := List.getElem?_eq_some_iff.1 htv
        exact (List.Nodup.getElem_inj_iff hd).1 (hi2.trans hj2.symm)
      refine ⟨⟨r' :: rs, by rw [g1]; simp, .cons ⟨tv, htv, hres⟩ (g2.imp fun i r h' => back i r h')⟩, ?_, ?_⟩
      · intro i hi tv' htv' l
        rw [g3 i (fun h' => hi (List.mem_cons_of_mem _ h')) tv' (by rw [hud]; exact htv') l,
          hp1 l tv' (hinj i tv' (fun h' => hi (h' ▸ List.mem_cons_self ..)) htv')]
      · intro hb i hi
        by_cases hij : i = j
        · subst hij
          refine ⟨tv, htv, r', ⟨tv, htv, hres⟩, ?_⟩
          intro l hl k hk q hq'
          rw [← hp2 hb l hl k hk q hq']
          unfold MState.paramAt
          rw [g3 i hj tv (by rw [hud]; exact htv) l]
        · have hi' : i ∈ js := by
            rcases List.mem_cons.1 hi with h' | h'
            · exact absurd h' hij
            · exact h'
          obtain ⟨tv', htv', r2, e1, e2⟩ := g4 hb i hi'
          rw [hud] at htv'
          rw [hurep, hufold] at e2
          exact ⟨tv', htv', r2, back i r2 e1, e2⟩

/-! ## When fold-wise tuning succeeds -/

/-- The nested parameter list built from complete results is accepted. -/
theorem foldArg_total {rs : List (TuneRes P)} {learners : List String} {nFolds : ℕ}
    (h : ∀ r ∈ rs, r.map Prod.fst = learners ∧ ∀ q ∈ r, q.2.length = nFolds) {l : String} (hl : l ∈ learners) :
    ∃ L, foldArg rs l = .ok (.list L) ∧ L.length = rs.length ∧ ∀ x ∈ L, x.length = nFolds := by
  unfold foldArg
  suffices ∃ L, rs.mapM (foldArg.entry l) = .ok L ∧ L.length = rs.length ∧ ∀ x ∈ L, x.length = nFolds by
    obtain ⟨L, h1, h2⟩ := this
    exact ⟨L, by rw [h1]; rfl, h2⟩
  induction rs with
  | nil => exact ⟨[], rfl, rfl, by simp⟩
  | cons r rs ih =>
    obtain ⟨L, h1, h2, h3⟩ := ih fun r' hr' => h r' (List.mem_cons_of_mem _ hr')
    obtain ⟨hk, hlen⟩ := h r (List.mem_cons_self ..)
    obtain ⟨v, hv⟩ := lookupKey_of_mem (l := l) (L := r) (by rw [hk]; exact hl)
    refine ⟨v :: L, ?_, by simp [h2], ?_⟩
    · rw [List.mapM_cons, h1]; unfold foldArg.entry; rw [hv]; rfl
    · intro x hx
      rcases List.mem_cons.1 hx with rfl | hx
      · exact hlen _ (lookupKey_mem hv)
      · exact h3 x hx

theorem setAll_total {sp : Spec n P M} {tv : String} {arg : String → Except Exc (ParamArg P)} {s : MState n P M}
    {ls : List String} (htv : tv ∈ s.data.d)
    (h : ∀ l ∈ ls, l ∈ sp.learners ∧ ∃ a, arg l = .ok a ∧ a.Fits s.nRep s.nFolds) :
    (setAll sp tv arg s ls).2 = .ok () := by
  induction ls generalizing s with
  | nil => rfl
  | cons l ls ih =>
    obtain ⟨hl, a, ha, hf⟩ := h l (List.mem_cons_self ..)
    have hacc := (C45_accepted_iff sp s l tv a).2 ⟨hl, htv, hf⟩
    have hfr := setNuisanceParams_frame sp s l tv a
    unfold setAll
    rw [ha]
    dsimp only
    rcases hq : setNuisanceParams sp s l tv a with ⟨t, (e | u)⟩
    · rw [hq] at hacc; cases hacc
    · rw [hq] at hfr
      dsimp only at hfr ⊢
      have hr : t.nRep = s.nRep := by have := hfr.rest; rw [this]
      have hf : t.nFolds = s.nFolds := by have := hfr.rest; rw [this]
      refine ih (by rw [hfr.data.d]; exact htv) fun l' hl' => ?_
      rw [hr, hf]
      exact h l' (List.mem_cons_of_mem _ hl')

theorem tuneReps_total {f : ℕ → List (Fold n) → Except Exc (TuneRes P)} {s : MState n P M} {j : ℕ} {ks : List ℕ}
    {t : TuneTable P} (hs : ∀ k ∈ ks, ∃ S, repSmpls s k = .ok S ∧ ∃ r, f k S = .ok r)
    (ht : ∀ k ∈ ks, k < t.rows) (hj : j < t.row.length) : ∃ q, tuneReps f s j ks t = .ok q := by
  induction ks generalizing t with
  | nil => exact ⟨_, rfl⟩
  | cons k ks ih =>
    obtain ⟨S, hS, r, hr⟩ := hs k (List.mem_cons_self ..)
    obtain ⟨q, hq⟩ := ih (t := { t with row := t.row.set j (some r) }) (fun k' hk' => hs k' (List.mem_cons_of_mem _ hk'))
      (fun k' hk' => ht k' (List.mem_cons_of_mem _ hk')) (by simpa using hj)
    refine ⟨(q.1, r :: q.2), ?_⟩
    unfold tuneReps
    have : t.set k j r = .ok { t with row := t.row.set j (some r) } := by
      unfold TuneTable.set
      rw [if_pos (ht k (List.mem_cons_self ..)), if_pos hj]
    simp only [hS, hr, this, hq, bind, Except.bind, pure, Except.pure]

/-- What tuning needs: a split with the right numbers of repetitions and folds, data whose treatments can be activated,
and a search that always finds something. -/
structure TuneReady (F : Frame n) (sp : Spec n P M) (f : Search n P) (s : MState n P M) : Prop where
  split : ∃ L, s.smpls = some L ∧ L.length = s.nRep ∧ ∀ S ∈ L, S.length = s.nFolds
  treats : ∀ j < s.data.d.length, ∃ D, activate F s.data j = .ok D
  search : ∀ j k D S, ∃ r, f j k D S = .ok r
  complete : f.Complete sp.learners

theorem TuneReady.frame {F : Frame n} {sp : Spec n P M} {f : Search n P} {s t : MState n P M} (h : TuneReady F sp f s)
    (hf : TuneFrame s t) : TuneReady F sp f t := by
  have hr : t.nRep = s.nRep := by have := hf.rest; rw [this]
  have hn : t.nFolds = s.nFolds := by have := hf.rest; rw [this]
  have hs : t.smpls = s.smpls := by have := hf.rest; rw [this]
  refine ⟨?_, ?_, h.search, h.complete⟩
  · rw [hs, hr, hn]; exact h.split
  · intro j hj
    rw [hf.data.d] at hj
    rw [activate_congr F hf.data]
    exact h.treats j hj

theorem tuneTreatFolds_total {F : Frame n} {sp : Spec n P M} {f : Search n P} {b : Bool} {s : MState n P M} {j : ℕ}
    {t : TuneTable P} (h : TuneReady F sp f s) (hr : 0 < s.nRep) (hj : j < s.data.d.length) (ht : s.nRep ≤ t.rows)
    (hrow : j < t.row.length) : ∃ t', (tuneTreatFolds sp f b s j t).2 = .ok t' ∧ t'.rows = t.rows ∧
      t'.row.length = t.row.length := by
  obtain ⟨L, hL, hLl, hLf⟩ := h.split
  have hsm : ∀ k < s.nRep, ∃ S, repSmpls s k = .ok S ∧ S.length = s.nFolds := by
    intro k hk
    refine ⟨L[k]'(by omega), repSmpls_eq.2 (by rw [hL]; simp [hLl, hk]), hLf _ (List.getElem_mem _)⟩
  obtain ⟨⟨t', rs⟩, hq⟩ := tuneReps_total (f := fun k => f j k s.data) (s := s) (j := j) (ks := List.range s.nRep) (t := t)
    (fun k hk => by
      obtain ⟨S, hS, _⟩ := hsm k (List.mem_range.1 hk)
      exact ⟨S, hS, h.search j k s.data S⟩)
    (fun k hk => lt_of_lt_of_le (List.mem_range.1 hk) ht) hrow
  obtain ⟨b1, _, b3, b4, _⟩ := tuneReps_ok hq
  have hlen : rs.length = s.nRep := by simpa using b1.length_eq.symm
  have hcomp : ∀ r ∈ rs, r.map Prod.fst = sp.learners ∧ ∀ q ∈ r, q.2.length = s.nFolds := by
    intro r hr'
    obtain ⟨k, hk, rfl⟩ := List.mem_iff_getElem.1 hr'
    obtain ⟨S, hS, hf⟩ := b1.get (i := k) (by simpa using (by omega : k < s.nRep)) hk
    obtain ⟨S', hS', hl⟩ := hsm k (by omega)
    have hSS : S = S' := by
      have : repSmpls s k = .ok S := by simpa using hS
      rw [hS'] at this
      exact (Except.ok.inj this).symm
    subst hSS
    have hc := h.complete j k s.data S rs[k] (by simpa using hf)
    exact ⟨hc.1, fun q hq => by rw [hc.2 q hq, hl]⟩
  refine ⟨t', ?_, b3, b4⟩
  unfold tuneTreatFolds
  rw [hq]
  dsimp only
  cases b with
  | false => rfl
  | true =>
    rw [if_pos rfl]
    cases rs with
    | nil => simp at hlen; omega
    | cons r rs =>
      dsimp only
      have hset : (setAll sp (s.data.d.getD j "") (foldArg (r :: rs)) s (tuneKeys r)).2 = .ok () := by
        refine setAll_total ?_ fun l hl => ?_
        · rw [List.getD, List.getElem?_eq_getElem hj]; exact List.getElem_mem _
        · have hl' : l ∈ sp.learners := by rw [← (hcomp r (List.mem_cons_self ..)).1]; exact hl
          obtain ⟨L', h1, h2, h3⟩ := foldArg_total hcomp hl'
          exact ⟨hl', _, h1, by rw [h2, hlen], h3⟩
      rcases hs : setAll sp (s.data.d.getD j "") (foldArg (r :: rs)) s (tuneKeys r) with ⟨u, (e | x)⟩
      · rw [hs] at hset; cases hset
      · rfl

theorem tuneFolds_total {F : Frame n} {sp : Spec n P M} {f : Search n P} {b : Bool} {js : List ℕ} {s : MState n P M}
    {t : TuneTable P} (h : TuneReady F sp f s) (hr : 0 < s.nRep) (hj : ∀ j ∈ js, j < s.data.d.length)
    (ht : s.nRep ≤ t.rows) (hrow : ∀ j ∈ js, j < t.row.length) : ∃ t', (tuneFolds F sp f b s js t).2 = .ok t' := by
  induction js generalizing s t with
  | nil => exact ⟨_, rfl⟩
  | cons j js ih =>
    obtain ⟨D, hD⟩ := h.treats j (hj j (List.mem_cons_self ..))
    have hfr1 := activate_frame (s := s) hD
    have hfr2 := tuneTreatFolds_frame sp f b { s with data := D } j t
    obtain ⟨t', ht', ht1, ht2⟩ := tuneTreatFolds_total (b := b) (h.frame hfr1) hr
      (by show j < D.d.length; rw [hfr1.data.d]; exact hj j (List.mem_cons_self ..)) ht (hrow j (List.mem_cons_self ..))
    unfold tuneFolds
    rw [hD]
    dsimp only
    rcases hq : tuneTreatFolds sp f b { s with data := D } j t with ⟨u, (e | t1)⟩
    · rw [hq] at ht'; cases ht'
    · rw [hq] at ht' hfr2
      obtain rfl := Except.ok.inj ht'
      dsimp only at hfr2 ⊢
      have hfr := hfr1.trans hfr2
      have hur : u.nRep = s.nRep := by have := hfr.rest; rw [this]
      refine ih (h.frame hfr) (by rw [hur]; exact hr) ?_ (by rw [hur, ht1]; exact ht) ?_
      · intro j' hj'; rw [hfr.data.d]; exact hj j' (List.mem_cons_of_mem _ hj')
      · intro j' hj'; rw [ht2]; exact hrow j' (List.mem_cons_of_mem _ hj')

/-! ## C44 -/

theorem tune_folds {F : Frame n} {sp : Spec n P M} {f : Search n P} {b : Bool} {s : MState n P M} {o : TuneOut P}
    (h : (tune F sp f true b s).2 = .ok o) : ∃ t, o = .table t ∧
      tuneFolds F sp f b s (List.range s.data.d.length) ⟨s.data.d.length, List.replicate s.nRep none⟩ =
        ((tune F sp f true b s).1, .ok t) := by
  unfold tune at h ⊢
  rw [if_pos rfl] at h ⊢
  rcases hq : tuneFolds F sp f b s (List.range s.data.d.length) ⟨s.data.d.length, List.replicate s.nRep none⟩ with
    ⟨u, (e | t)⟩
  · rw [hq] at h; cases h
  · rw [hq] at h
    exact ⟨t, (Except.ok.inj h).symm, rfl⟩

theorem tune_global {F : Frame n} {sp : Spec n P M} {f : Search n P} {b : Bool} {s : MState n P M} {o : TuneOut P}
    (h : (tune F sp f false b s).2 = .ok o) : ∃ l, o = .list l ∧
      tuneGlobal F sp f b s (List.range s.data.d.length) [] = ((tune F sp f false b s).1, .ok l) := by
  unfold tune at h ⊢
  rw [if_neg (by simp)] at h ⊢
  rcases hq : tuneGlobal F sp f b s (List.range s.data.d.length) [] with ⟨u, (e | t)⟩
  · rw [hq] at h; cases h
  · rw [hq] at h
    exact ⟨t, (Except.ok.inj h).symm, rfl⟩

/-- **C44 (violated).** Fold-wise tuning raises whenever the number of repetitions differs from the number of
treatments, whatever the search finds. -/
theorem C44_violated_raises {F : Frame n} {sp : Spec n P M} {f : Search n P} {b : Bool} {s : MState n P M}
    (hr : 0 < s.nRep) (hT : 0 < s.data.d.length) (hd : s.data.d.Nodup) (hne : s.nRep ≠ s.data.d.length) (o : TuneOut P) :
    (tune F sp f true b s).2 ≠ .ok o := by
  intro h
  obtain ⟨t, rfl, ht⟩ := tune_folds h
  obtain ⟨_, _, _, _, h5⟩ := tuneFolds_ok hr hd List.nodup_range ht
  have h1 := ((h5 0 (List.mem_range.2 hT)).1 (s.nRep - 1) (by omega)).1
  have h2 := ((h5 (s.data.d.length - 1) (List.mem_range.2 (by omega))).1 0 hr).2
  simp only [List.length_replicate] at h1 h2
  omega

/-- **C44.** For a search that always finds parameters, fold-wise tuning succeeds exactly if there are as many
repetitions as treatments. -/
theorem C44_succeeds_iff_partial {F : Frame n} {sp : Spec n P M} {f : Search n P} {b : Bool} {s : MState n P M}
    (h : TuneReady F sp f s) (hr : 0 < s.nRep) (ht : 0 < s.data.d.length) (hd : s.data.d.Nodup) :
    (∃ o, (tune F sp f true b s).2 = .ok o) ↔ s.nRep = s.data.d.length := by
  constructor
  · rintro ⟨o, ho⟩
    by_contra hne
    exact C44_violated_raises hr ht hd hne o ho
  · intro he
    obtain ⟨t, h1⟩ := tuneFolds_total (b := b) (js := List.range s.data.d.length)
      (t := ⟨s.data.d.length, List.replicate s.nRep none⟩) h hr (fun j hj => List.mem_range.1 hj) he.le
      (fun j hj => by simp only [List.length_replicate]; rw [he]; exact List.mem_range.1 hj)
    refine ⟨.table t, ?_⟩
    unfold tune
    rw [if_pos rfl]
    rcases hq : tuneFolds F sp f b s (List.range s.data.d.length) ⟨s.data.d.length, List.replicate s.nRep none⟩ with
      ⟨u, (e | t')⟩
    · rw [hq] at h1; cases h1
    · rw [hq] at h1
      obtain rfl := Except.ok.inj h1
      rfl

/-- **C44 (violated).** The returned table contains, in every row, only the results of the last repetition: entry
`[a][b]` is the result for treatment `b` in repetition `n_rep - 1`, whatever `a` is. -/
theorem C44_violated_only_last {F : Frame n} {sp : Spec n P M} {f : Search n P} {b : Bool} {s : MState n P M}
    {t : TuneTable P} (hr : 0 < s.nRep) (hd : s.data.d.Nodup) (h : (tune F sp f true b s).2 = .ok (.table t))
    {i j : ℕ} (hi : i < s.data.d.length) (hj : j < s.data.d.length) :
    ∃ r, t.get i j = some (some r) ∧ FoldResult F f s j (s.nRep - 1) r := by
  obtain ⟨t', ht', h⟩ := tune_folds h
  obtain rfl : t = t' := TuneOut.table.inj ht'
  obtain ⟨h1, _, _, _, h5⟩ := tuneFolds_ok hr hd List.nodup_range h
  obtain ⟨_, tv, _, rs, hl, hres, hlast, _⟩ := h5 j (List.mem_range.2 hj)
  obtain ⟨r, hr1, hr2⟩ := hres (s.nRep - 1) (by omega)
  refine ⟨r, ?_, hr2⟩
  unfold TuneTable.get
  rw [if_pos (by rw [h1]; exact hi)]
  refine hlast r ?_
  rw [List.getLast?_eq_getElem?, hl]
  exact hr1

/-- **C44.** Reported results are right with a single repetition and a single treatment. -/
theorem C44_returned_partial {F : Frame n} {sp : Spec n P M} {f : Search n P} {b : Bool} {s : MState n P M}
    {t : TuneTable P} (hr : s.nRep = 1) (ht : s.data.d.length = 1) (h : (tune F sp f true b s).2 = .ok (.table t)) :
    ∃ r, t.get 0 0 = some (some r) ∧ FoldResult F f s 0 0 r := by
  have hd : s.data.d.Nodup := by
    obtain ⟨a, ha⟩ := List.length_eq_one_iff.1 ht
    rw [ha]; simp
  have := C44_violated_only_last (by omega) hd h (i := 0) (j := 0) (by omega) (by omega)
  rwa [hr] at this

/-- **C44.** Fold-wise tuning with `set_as_params=True`: if it succeeds, the model holds for every treatment,
repetition, fold and learner the parameters that the search for this treatment and repetition found for this learner
and fold. -/
theorem C44_stored_partial {F : Frame n} {sp : Spec n P M} {f : Search n P} {s : MState n P M} {o : TuneOut P}
    (hr : 0 < s.nRep) (hd : s.data.d.Nodup) (hf : f.Complete sp.learners) (h : (tune F sp f true true s).2 = .ok o)
    {j k : ℕ} (hj : j < s.data.d.length) (hk : k < s.nRep) :
    ∃ r, FoldResult F f s j k r ∧ ∀ l ∈ sp.learners, ∀ i < s.nFolds,
      (tune F sp f true true s).1.paramAt l s.data.d[j] k i = (lookupKey l r).bind fun ps => ps[i]? := by
  obtain ⟨t, rfl, ht⟩ := tune_folds h
  obtain ⟨_, _, _, _, h5⟩ := tuneFolds_ok hr hd List.nodup_range ht
  obtain ⟨_, tv, htv, rs, hl, hres, _, hpar⟩ := h5 j (List.mem_range.2 hj)
  obtain ⟨r, hr1, hr2⟩ := hres k hk
  obtain ⟨r₀, hr₀, hres₀⟩ := hres 0 hr
  refine ⟨r, hr2, fun l hl' i hi => ?_⟩
  rw [List.getElem?_eq_getElem hj] at htv
  obtain rfl := Option.some.inj htv
  have hkey : l ∈ tuneKeys r₀ := by
    obtain ⟨tv', S, _, _, hf'⟩ := hres₀
    show l ∈ r₀.map Prod.fst
    rw [(hf _ _ _ _ _ hf').1]; exact hl'
  rw [hpar rfl r₀ hr₀ l hkey k hk i hi, hr1]
  rfl

/-- **C44.** Global tuning: the returned list contains for every treatment its own result, and with
`set_as_params=True` all repetitions and folds of this treatment use the parameters found. -/
theorem C44_global_partial {F : Frame n} {sp : Spec n P M} {f : Search n P} {b : Bool} {s : MState n P M} {o : TuneOut P}
    (hd : s.data.d.Nodup) (hf : f.Complete sp.learners) (h : (tune F sp f false b s).2 = .ok o) :
    (∃ rs, o = .list rs ∧ rs.length = s.data.d.length ∧ ∀ j (hj : j < rs.length), GlobalResult F f s j rs[j]) ∧
    (b = true → ∀ j (hj : j < s.data.d.length), ∃ r, GlobalResult F f s j r ∧ ∀ l ∈ sp.learners, ∀ k < s.nRep,
      ∀ i < s.nFolds, ∃ p, (lookupKey l r).bind (fun ps => ps[0]?) = some p ∧
        (tune F sp f false b s).1.paramAt l s.data.d[j] k i = some p) := by
  obtain ⟨l, rfl, ht⟩ := tune_global h
  obtain ⟨⟨rs, h1, h2⟩, _, h4⟩ := tuneGlobal_ok hd List.nodup_range ht
  rw [List.nil_append] at h1
  subst h1
  have hlen : l.length = s.data.d.length := by simpa using h2.length_eq.symm
  refine ⟨⟨l, rfl, hlen, fun j hj => ?_⟩, fun hb j hj => ?_⟩
  · have := h2.get (i := j) (by simp; omega) hj
    simpa using this
  · obtain ⟨tv, htv, r, hr, hp⟩ := h4 hb j (List.mem_range.2 hj)
    rw [List.getElem?_eq_getElem hj] at htv
    obtain rfl := Option.some.inj htv
    refine ⟨r, hr, fun l' hl' k hk i hi => ?_⟩
    obtain ⟨tv', _, hf'⟩ := hr
    obtain ⟨hkeys, hlens⟩ := hf _ _ _ _ _ hf'
    obtain ⟨v, hv⟩ := lookupKey_of_mem (l := l') (L := r) (by rw [hkeys]; exact hl')
    have hvl : v.length = 1 := hlens _ (lookupKey_mem hv)
    obtain ⟨p, rfl⟩ := List.length_eq_one_iff.1 hvl
    refine ⟨p, by rw [hv]; rfl, ?_⟩
    rw [hp l' (by show l' ∈ r.map Prod.fst; rw [hkeys]; exact hl') k hk i hi, hv]
    rfl

/-! ## PLR -/

theorem dmlTune_getElem? {X : Type} (f : SearchFn P X) (x : Fin n → X) (y : Fin n → ℝ) (L : List (List (Fin n))) (i : ℕ) :
    (dmlTune f x y L)[i]? = L[i]?.map fun tr => f i (tr.map fun j => (x j, y j)) := by
  unfold dmlTune
  rw [List.getElem?_map, List.getElem?_zipIdx]
  cases L[i]? <;> simp

theorem dmlTune_length {X : Type} (f : SearchFn P X) (x : Fin n → X) (y : Fin n → ℝ) (L : List (List (Fin n))) :
    (dmlTune f x y L).length = L.length := by simp [dmlTune]

/-- The PLR search is complete. -/
theorem plrTune_complete (c : PlrClass n P) (T : PlrSearch P) : (plrTune (n := n) c.iv T).Complete (plrSpec c).learners := by
  intro j k D S r h
  obtain rfl := Except.ok.inj h
  cases hiv : c.iv
  · refine ⟨by simp [plrSpec, hiv], ?_⟩
    intro q hq
    simp only [Bool.false_eq_true, if_false, List.mem_cons, List.not_mem_nil, or_false] at hq
    rcases hq with rfl | rfl <;> simp [dmlTune_length]
  · refine ⟨by simp [plrSpec, hiv], ?_⟩
    intro q hq
    simp only [if_true, List.cons_append, List.nil_append, List.mem_cons, List.not_mem_nil, or_false] at hq
    rcases hq with rfl | rfl | rfl <;> simp [dmlTune_length, plrTuneG]

/-- **C44.** The parameters the PLR search finds for `ml_l` and `ml_m` in fold `i` are those of the search on the rows of
the training set of fold `i`. -/
theorem C44_plr_own_training_partial (iv : Bool) (T : PlrSearch P) (j k : ℕ) (D : DataState n) (S : List (Fold n)) :
    ∃ r, plrTune iv T j k D S = .ok r ∧ ∀ i (hi : i < S.length),
      (lookupKey "ml_l" r).bind (fun ps => ps[i]?) =
        some (T.l j k i (S[i].train.map fun q => (rowX D q, (D.yv q).val))).best ∧
      (lookupKey "ml_m" r).bind (fun ps => ps[i]?) =
        some (T.m j k i (S[i].train.map fun q => (rowX D q, (D.dv q).val))).best := by
  refine ⟨_, rfl, fun i hi => ?_⟩
  cases iv <;> simp [lookupKey, dmlTune_getElem?, List.getElem?_eq_getElem hi]

/-- **C44.** End to end for PLR with the partialling-out score: after a successful fold-wise `tune` and a `fit`, the
stored prediction of `ml_l` for a test observation of fold `i` in repetition `k` comes from the learner with the
parameters that the search found on the training rows of this fold, trained on the training rows of this fold. -/
theorem C44_plr_prediction_partial {F : Frame n} {c : PlrClass n P} {T : PlrSearch P}
    {s : MState n P (Option (List (FittedModel P (List Cell))))} {a : FitArgs} {o : TuneOut P}
    (hiv : c.iv = false) (he : a.ext = .none) (hp : a.storePredictions = .bool true) (hr : 0 < s.nRep)
    (hd : s.data.d.Nodup) (ht : (tune F (plrSpec c) (plrTune c.iv T) true true s).2 = .ok o)
    (h : (fit F (plrSpec c) (tune F (plrSpec c) (plrTune c.iv T) true true s).1 a).2 = .ok ()) {j k : ℕ}
    (hj : j < s.data.d.length) (hk : k < s.nRep) {L : List (List (Fold n))} {S : List (Fold n)} (hs : s.smpls = some L)
    (hS : L[k]? = some S) (hSl : S.length = s.nFolds) (hpart : isPartition S = true) (hnd : ∀ f ∈ S, f.train.Nodup) :
    ∃ D : DataState n, D = activeData F s.data s.data.d[j] ∧ ∃ preds targets,
      (fit F (plrSpec c) (tune F (plrSpec c) (plrTune c.iv T) true true s).1 a).1.preds.map (fun t => t j k) =
        some (some (preds, targets)) ∧
      ∃ q, lookupKey "ml_l" preds = some q ∧ ∀ i (hi : i < S.length), ∀ z ∈ S[i].test,
        q z = some (c.ml_l.predict (some (T.l j k i (S[i].train.map fun q => (rowX D q, (D.yv q).val))).best)
          (S[i].train.map fun q => (rowX D q, (D.yv q).val)) (rowX D z)) := by
  have hst := fun j hj k hk => C44_stored_partial (j := j) (k := k) hr hd (plrTune_complete c T) ht hj hk
  have hfr := tune_frame F (plrSpec c) (plrTune c.iv T) true true s
  generalize (tune F (plrSpec c) (plrTune c.iv T) true true s).1 = s' at *
  have hd' : s'.data.d = s.data.d := hfr.data.d
  have hr' : s'.nRep = s.nRep := by have := hfr.rest; rw [this]
  have hs' : s'.smpls = s.smpls := by have := hfr.rest; rw [this]
  obtain ⟨D, hD, preds, targets, h1, q, hq, hv⟩ := C45_plr_prediction hiv he hp h (j := j) (k := k)
    (by rw [hd']; exact hj) (by rw [hr']; exact hk) (by rw [hs']; exact hs) hS hpart hnd
  have hdj : s'.data.d[j]'(by rw [hd']; exact hj) = s.data.d[j] := by simp only [hd']
  rw [hdj] at hD hv
  have hDD : D = activeData F s.data s.data.d[j] := by rw [hD, activeData_congr F hfr.data]
  refine ⟨D, hDD, preds, targets, h1, q, hq, fun i hi z hz => ?_⟩
  rw [hv i hi z hz]
  obtain ⟨r, ⟨tv, S', htv, hS', hf⟩, hpar⟩ := hst j hj k hk
  rw [List.getElem?_eq_getElem hj] at htv
  obtain rfl := Option.some.inj htv
  rw [hs] at hS'
  obtain rfl : S = S' := Option.some.inj (hS.symm.trans hS')
  rw [hpar "ml_l" (by simp [plrSpec]; split <;> simp) i (by rw [← hSl]; exact hi)]
  obtain ⟨r', hr1, hr2⟩ := C44_plr_own_training_partial c.iv T j k (activeData F s.data s.data.d[j]) S
  rw [hr1] at hf
  obtain rfl := Except.ok.inj hf
  rw [(hr2 i hi).1, hDD]

/-- **C44 (violated).** For the IV-type score the parameters of `ml_g` in a fold also depend on observations outside its
training set: two data sets that agree on the training set of the first fold give different parameters for it, because
the initial estimate used for the tuning target is computed from all observations. -/
theorem C44_violated_iv : ∃ (T : PlrSearch ℕ) (D D' : DataState 2) (S : List (Fold 2)) (r r' : TuneRes ℕ),
    isPartition S = true ∧ 0 < S.length ∧
    (∀ f, S[0]? = some f → ∀ i ∈ f.train, rowX D i = rowX D' i ∧ D.yv i = D'.yv i ∧ D.dv i = D'.dv i) ∧
    plrTune true T 0 0 D S = .ok r ∧ plrTune true T 0 0 D' S = .ok r' ∧
    (lookupKey "ml_g" r).bind (fun ps => ps[0]?) ≠ (lookupKey "ml_g" r').bind (fun ps => ps[0]?) := by
  classical
  let T : PlrSearch ℕ := ⟨fun _ _ _ _ => ⟨0, fun _ => 0⟩, fun _ _ _ _ => ⟨0, fun _ => 0⟩,
    fun _ _ _ tr => ⟨if ∀ q ∈ tr, q.2 ≤ 0 then 0 else 1, fun _ => 0⟩⟩
  let D : ℝ → DataState 2 := fun v =>
    { exState with yv := fun i : Fin 2 => .num (if i = 0 then 0 else v), dv := fun _ => .num 1 }
  have key : ∀ v : ℝ, ∃ r, plrTune true T 0 0 (D v) [⟨[0], [1]⟩, ⟨[1], [0]⟩] = .ok r ∧
      (lookupKey "ml_g" r).bind (fun ps => ps[0]?) = some (if -(v / 2) ≤ 0 then 0 else 1) := by
    intro v
    refine ⟨_, rfl, ?_⟩
    simp [lookupKey, plrTuneG, dmlTune, T, D, tuneTheta, trainHat, Fin.sum_univ_two, Cell.val]
    norm_num
  obtain ⟨r, h1, h2⟩ := key 2
  obtain ⟨r', h3, h4⟩ := key (-2)
  refine ⟨T, D 2, D (-2), _, r, r', by decide, by simp, ?_, h1, h3, ?_⟩
  · intro f hf i hi
    simp only [List.getElem?_cons_zero, Option.some.injEq] at hf
    subst hf
    simp only [List.mem_singleton] at hi
    subst hi
    exact ⟨rfl, by simp [D], rfl⟩
  · rw [h2, h4]
    norm_num

/-! ## Concrete models -/

/-- Construction of a PLR model on non-clustered data with two observations and two folds. -/
theorem exInitPlr {k : PlrClass 2 P} (hv : k.vars = none) (D : DataState 2) (r : ℕ) (hr : 0 < r) (w : Draws 2) :
    ∃ s, initModel (plrSpec k) D 0 (.int 2) (.int r) (.bool true) w = .ok s ∧ s.data = D ∧ s.nRep = r ∧ s.nFolds = 2 ∧
      ∃ L, s.smpls = some L ∧ L.length = r ∧ ∀ S ∈ L, S.length = 2 := by
  have hv : (plrSpec k).vars = none := hv
  have h1 : checkClusterVars (plrSpec k) D = .ok () := by simp [checkClusterVars, hv]
  have h2 : checkInteger (.int 2) (some 1) none = .ok 2 := by simp [checkInteger, PyVal.asInt]
  have h3 : checkInteger (.int r) (some 1) none = .ok (r : ℤ) := by
    simp [checkInteger, PyVal.asInt]; omega
  unfold initModel
  rw [h1]
  simp only [bind, Except.bind, h2, h3, checkBool, if_true]
  have hst : (plrSpec k).stratified = false := rfl
  have hdr := drawSplit_eq 2 r w.shuffle le_rfl le_rfl
  simp only [drawSampleSplitting, drawnSplit, hv, hst]
  simp only [Option.isSome_none, Bool.false_eq_true, if_false, Int.toNat_natCast, show Int.toNat 2 = 2 from rfl, hdr, bind,
    Except.bind, pure, Except.pure]
  refine ⟨_, rfl, rfl, rfl, rfl, _, rfl, by simp, ?_⟩
  intro S hS
  obtain ⟨q, _, rfl⟩ := List.mem_map.1 hS
  simp [kfold]

/-- Data with two treatments. -/
noncomputable def exState2 : DataState 2 := { exState with d := ["d", "e"] }

theorem exState2_activate : ∀ j < exState2.d.length, ∃ D, activate exFrame exState2 j = .ok D := by
  intro j hj
  have hf := exFrame_finite
  have key : ∀ tv ∈ exState2.d, ∃ D, setXD exFrame exState2 tv = .ok D := by
    intro tv htv
    unfold setXD
    rw [if_neg (not_not.2 htv), if_neg (not_not.2 (hf tv)), if_neg (fun h => h.2 fun c _ => hf c),
      if_neg (fun h => by simp [exState2, exState] at h)]
    exact ⟨_, rfl⟩
  unfold activate
  rw [List.getElem?_eq_getElem hj]
  dsimp only
  rw [if_pos (by simp [exState2])]
  exact key _ (List.getElem_mem hj)

/-- A search that finds the number of the treatment and the repetition it was called for. -/
def exSearch : Search n ℕ := fun j k _ S =>
  .ok [("ml_l", List.replicate S.length (10 * j + k)), ("ml_m", List.replicate S.length 0)]

/-- **C44 (violated).** A constructed PLR model with two treatments and two repetitions for which fold-wise tuning
succeeds, but no entry of the returned table is the result for the first treatment in the first repetition. -/
theorem C44_violated (w : Draws 2) : ∃ (s : MState 2 ℕ (Option (List (FittedModel ℕ (List Cell))))) (t : TuneTable ℕ)
    (r : TuneRes ℕ),
    initModel (plrSpec exHalf) exState2 0 (.int 2) (.int 2) (.bool true) w = .ok s ∧
    (tune exFrame (plrSpec exHalf) exSearch true true s).2 = .ok (.table t) ∧
    FoldResult exFrame exSearch s 0 0 r ∧ ∀ a < 2, ∀ b < 2, t.get a b ≠ some (some r) := by
  obtain ⟨s, hi, hd, hr, hf, L, hL, hLl, hLS⟩ := exInitPlr (k := exHalf) rfl exState2 2 (by norm_num) w
  have hready : TuneReady exFrame (plrSpec exHalf) exSearch s := by
    refine ⟨⟨L, hL, by rw [hr]; exact hLl, by rw [hf]; exact hLS⟩, ?_, fun _ _ _ _ => ⟨_, rfl⟩, ?_⟩
    · rw [hd]; exact exState2_activate
    · intro j k D S r h
      obtain rfl := Except.ok.inj h
      refine ⟨by simp [plrSpec, exHalf], ?_⟩
      intro q hq
      simp only [List.mem_cons, List.not_mem_nil, or_false] at hq
      rcases hq with rfl | rfl <;> simp
  have hlen : s.data.d.length = 2 := by rw [hd]; rfl
  have hnd : s.data.d.Nodup := by rw [hd]; simp [exState2]
  obtain ⟨o, ho⟩ := (C44_succeeds_iff_partial (b := true) hready (by omega) (by omega) hnd).2 (by omega)
  obtain ⟨t, rfl, _⟩ := tune_folds ho
  obtain ⟨S0, hS0⟩ : ∃ S, L[0]? = some S := ⟨_, List.getElem?_eq_getElem (by omega)⟩
  refine ⟨s, t, [("ml_l", List.replicate S0.length 0), ("ml_m", List.replicate S0.length 0)], hi, ho, ?_, ?_⟩
  · exact ⟨"d", S0, by rw [hd]; rfl, by rw [hL]; exact hS0, rfl⟩
  · intro a ha b hb hget
    obtain ⟨r, h1, tv, S, _, h3, h4⟩ := C44_violated_only_last (by omega) hnd ho (i := a) (j := b) (by omega) (by omega)
    rw [hget] at h1
    obtain rfl := Option.some.inj (Option.some.inj h1)
    have h4 := Except.ok.inj h4
    rw [hL, hr] at h3
    have hS : S.length = 2 := hLS S (List.mem_of_getElem? h3)
    have hS0l : S0.length = 2 := hLS S0 (List.mem_of_getElem? hS0)
    rw [hr, hS, hS0l] at h4
    simp at h4

/-- The parameters held for a learner and a treatment have the right shape. -/
def ParamsFit (l tv : String) (s : MState n P M) : Prop :=
  ∃ v, s.params l tv = some v ∧ v.length = s.nRep ∧ ∀ (k : ℕ) (q : List P), v[k]? = some (some q) → q.length = s.nFolds

theorem paramValue_fit {nRep nFolds : ℕ} {a : ParamArg P} {v : List (Option (List P))}
    (h : paramValue nRep nFolds a = .ok v) :
    v.length = nRep ∧ ∀ (k : ℕ) (q : List P), v[k]? = some (some q) → q.length = nFolds := by
  have hfit := (paramValue_ok h).1
  cases a with
  | none =>
    obtain rfl := Except.ok.inj h
    refine ⟨by simp, fun k q hq => ?_⟩
    have := List.mem_of_getElem? hq
    simp at this
  | dict p =>
    obtain rfl := Except.ok.inj h
    refine ⟨by simp, fun k q hq => ?_⟩
    have := List.mem_of_getElem? hq
    simp only [List.mem_replicate, Option.some.injEq] at this
    rw [this.2]; simp
  | list l =>
    unfold paramValue at h
    dsimp only at h
    rw [if_neg (not_not.2 hfit.1), if_pos (by simpa using hfit.2)] at h
    obtain rfl := Except.ok.inj h
    refine ⟨by simpa using hfit.1, fun k q hq => ?_⟩
    rw [List.getElem?_map] at hq
    cases hl : l[k]? with
    | none => rw [hl] at hq; cases hq
    | some q' =>
      rw [hl] at hq
      obtain rfl := Option.some.inj (Option.some.inj hq)
      exact hfit.2 q' (List.mem_of_getElem? hl)

theorem setNuisanceParams_fit {sp : Spec n P M} {s : MState n P M} {l tv l' tv' : String} {a : ParamArg P}
    (h : ParamsFit l tv s) : ParamsFit l tv (setNuisanceParams sp s l' tv' a).1 := by
  unfold setNuisanceParams
  by_cases h1 : l' ∉ sp.learners
  · rw [if_pos h1]; exact h
  rw [if_neg h1]
  by_cases h2 : tv' ∉ s.data.d
  · rw [if_pos h2]; exact h
  rw [if_neg h2]
  cases hv : paramValue s.nRep s.nFolds a with
  | error e => exact h
  | ok v =>
    dsimp only
    unfold ParamsFit setNuisanceParams.set2'
    dsimp only
    by_cases hc : l = l' ∧ tv = tv'
    · rw [if_pos hc]
      exact ⟨v, rfl, paramValue_fit hv⟩
    · rw [if_neg hc]
      exact h

theorem setAll_fit {sp : Spec n P M} {s : MState n P M} {l tv tv' : String} {arg : String → Except Exc (ParamArg P)}
    {ls : List String} (h : ParamsFit l tv s) : ParamsFit l tv (setAll sp tv' arg s ls).1 := by
  induction ls generalizing s with
  | nil => exact h
  | cons l' ls ih =>
    unfold setAll
    cases arg l' with
    | error e => exact h
    | ok a =>
      dsimp only
      have h' := setNuisanceParams_fit (sp := sp) (l' := l') (tv' := tv') (a := a) h
      rcases hq : setNuisanceParams sp s l' tv' a with ⟨t, (e | u)⟩
      · rw [hq] at h'; exact h'
      · rw [hq] at h'; exact ih h'

theorem tuneFolds_fit {F : Frame n} {sp : Spec n P M} {f : Search n P} {b : Bool} {s : MState n P M} {l tv : String}
    {js : List ℕ} {t : TuneTable P} (h : ParamsFit l tv s) : ParamsFit l tv (tuneFolds F sp f b s js t).1 := by
  induction js generalizing s t with
  | nil => exact h
  | cons j js ih =>
    unfold tuneFolds
    cases ha : activate F s.data j with
    | error e => exact h
    | ok D =>
      dsimp only
      have h0 : ParamsFit l tv { s with data := D } := h
      have h1 : ParamsFit l tv (tuneTreatFolds sp f b { s with data := D } j t).1 := by
        unfold tuneTreatFolds
        rcases tuneReps (fun k => f j k D) { s with data := D } j (List.range s.nRep) t with e | ⟨t', rs⟩
        · exact h0
        · dsimp only
          cases b with
          | false => exact h0
          | true =>
            rw [if_pos rfl]
            cases rs with
            | nil => exact h0
            | cons r rs =>
              dsimp only
              have h' := setAll_fit (sp := sp) (tv' := D.d.getD j "") (arg := foldArg (r :: rs)) (ls := tuneKeys r) h0
              rcases hq : setAll sp (D.d.getD j "") (foldArg (r :: rs)) { s with data := D } (tuneKeys r) with ⟨u, (e | x)⟩
              · rw [hq] at h'; exact h'
              · rw [hq] at h'; exact h'
      rcases hq : tuneTreatFolds sp f b { s with data := D } j t with ⟨u, (e | t')⟩
      · rw [hq] at h1; exact h1
      · rw [hq] at h1; exact ih h1

theorem tune_fit {F : Frame n} {sp : Spec n P M} {f : Search n P} {b : Bool} {s : MState n P M} {l tv : String}
    (h : ParamsFit l tv s) : ParamsFit l tv (tune F sp f true b s).1 := by
  unfold tune
  rw [if_pos rfl]
  have h1 := tuneFolds_fit (F := F) (sp := sp) (f := f) (b := b) (js := List.range s.data.d.length)
    (t := ⟨s.data.d.length, List.replicate s.nRep none⟩) h
  rcases hq : tuneFolds F sp f b s (List.range s.data.d.length) ⟨s.data.d.length, List.replicate s.nRep none⟩ with
    ⟨u, (e | t')⟩
  · rw [hq] at h1; exact h1
  · rw [hq] at h1; exact h1

/-- Fold-wise tuning keeps a PLR model ready for a fit. -/
theorem PlrReady.tune {F : Frame n} {k : PlrClass n P} {s : MState n P (Option (List (FittedModel P (List Cell))))}
    {tv : String} (h : PlrReady k s tv) (hf : ∀ L S, s.smpls = some L → S ∈ L → S.length = s.nFolds) {f : Search n P}
    {b : Bool} : PlrReady k (tune F (plrSpec k) f true b s).1 tv := by
  have hfr := tune_frame F (plrSpec k) f true b s
  have hfit : ∀ l ∈ ["ml_l", "ml_m"], ParamsFit l tv (DML.tune F (plrSpec k) f true b s).1 := by
    intro l hl
    refine tune_fit ?_
    obtain ⟨v, h1, h2, h3⟩ := h.params l hl
    refine ⟨v, h1, h2, fun q ps hq => ?_⟩
    obtain ⟨L, hL, hLl, _⟩ := h.split
    have hq' : q < L.length := by
      rw [hLl, ← h2]; exact (List.getElem?_eq_some_iff.1 hq).1
    rw [h3 q ps hq L L[q] hL (List.getElem?_eq_getElem hq')]
    exact hf L _ hL (List.getElem_mem hq')
  generalize (DML.tune F (plrSpec k) f true b s).1 = s' at *
  have e := hfr.rest
  have hd : s'.data = s.data := hfr.data.active (by rw [h.treat]; simp)
  rw [hd] at e
  have hr : s'.nRep = s.nRep := by rw [e]
  have hn : s'.nFolds = s.nFolds := by rw [e]
  have hs : s'.smpls = s.smpls := by rw [e]
  refine ⟨h.iv, by rw [hr, show s'.smplsCluster = s.smplsCluster by rw [e]]; exact h.cluster, h.regressor, ?_, by rw [hd]; exact h.treat, by rw [hs, hr]; exact h.split, ?_,
    by rw [hd]; exact h.binary, h.proper⟩
  · obtain ⟨a1, a2, a3⟩ := h.shaped
    have ha : s'.arr = s.arr := by rw [e]
    have hh : s'.heap = s.heap := by rw [e]
    exact ⟨by rw [hr]; exact a1, by rw [hh, ha, hd]; exact a2, by rw [hh, ha, hr]; exact a3⟩
  · intro l hl
    obtain ⟨v, h1, h2, h3⟩ := hfit l hl
    refine ⟨v, h1, h2, fun q ps hq L S hL hS => ?_⟩
    rw [h3 q ps hq, hn]
    rw [hs] at hL
    exact (hf L S hL (List.mem_of_getElem? hS)).symm

/-- C44: a PLR model for which fold-wise tuning and the fit afterwards both succeed. -/
example (w : Draws 2) : ∃ s, initModel (plrSpec exHalf) exState 0 (.int 2) (.int 1) (.bool true) w = .ok s ∧
    ∃ (T : PlrSearch ℕ) (o : TuneOut ℕ),
    (tune exFrame (plrSpec exHalf) (plrTune exHalf.iv T) true true
      (setSampleSplitting (plrSpec exHalf) s exSplit none).1).2 = .ok o ∧
    (fit exFrame (plrSpec exHalf) (tune exFrame (plrSpec exHalf) (plrTune exHalf.iv T) true true
      (setSampleSplitting (plrSpec exHalf) s exSplit none).1).1 {}).2 = .ok () := by
  obtain ⟨s, hi, h1, h2, h3, h4, h5⟩ := exReady w
  refine ⟨s, hi, ⟨fun _ _ _ tr => ⟨tr.length, fun _ => 0⟩, fun _ _ _ _ => ⟨0, fun _ => 0⟩, fun _ _ _ _ => ⟨0, fun _ => 0⟩⟩, ?_⟩
  generalize (setSampleSplitting (plrSpec exHalf) s exSplit none).1 = s' at *
  have hlen : ∀ L S, s'.smpls = some L → S ∈ L → S.length = s'.nFolds := by
    intro L S hL hS
    rw [h2] at hL
    obtain rfl := Option.some.inj hL
    simp only [List.mem_cons, List.not_mem_nil, or_false] at hS
    rw [hS, h4]; rfl
  have hact : ∀ j < s'.data.d.length, ∃ D, activate exFrame s'.data j = .ok D := by
    intro j hj
    rw [h5] at hj ⊢
    refine ⟨exState, ?_⟩
    unfold activate
    rw [List.getElem?_eq_getElem hj]
    dsimp only
    rw [if_neg (by simp [exState])]
  obtain ⟨o, ho⟩ := (C44_succeeds_iff_partial (b := true) (sp := plrSpec exHalf) (f := plrTune exHalf.iv
    ⟨fun _ _ _ tr => ⟨tr.length, fun _ => 0⟩, fun _ _ _ _ => ⟨0, fun _ => 0⟩, fun _ _ _ _ => ⟨0, fun _ => 0⟩⟩)
    ⟨⟨_, h2, by rw [h3]; rfl, by rw [h4]; simp⟩, hact, fun _ _ _ _ => ⟨_, rfl⟩, plrTune_complete exHalf _⟩ (by omega)
    (by rw [h5]; simp [exState]) (by rw [h5]; simp [exState])).2 (by rw [h3, h5]; rfl)
  exact ⟨o, ho, plr_fit_succeeds (h1.tune hlen) (p := true) (m := false) rfl rfl rfl rfl⟩

end DML
