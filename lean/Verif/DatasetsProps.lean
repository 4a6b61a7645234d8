import Verif.Datasets
import Verif.DataProps
import Mathlib.Tactic.IntervalCases

/-!
# Simulated data: what is returned

C80, first part: for every design, the three kinds of return values carry the same simulated arrays, and the data object has the
roles of the model it is made for.
-/

namespace DML

variable {n p : ℕ}

/-! ## Specification -/

/-- The numbers of an array as cells. -/
def asCells (f : Fin n → ℝ) : Fin n → Cell := fun i => .num (f i)

/-- The data object holds these arrays: outcome, treatment, covariates, instruments, time and selection indicator. -/
structure HoldsArrays (D : DataState n) (y d : Fin n → ℝ) (x : List (Fin n → ℝ)) (z : Option (List (Fin n → ℝ)))
    (t s : Option (Fin n → ℝ)) : Prop where
  y : D.yv = asCells y
  d : D.dv = asCells d
  x : D.xv = x.map asCells
  z : D.zv = z.map (List.map asCells)
  t : D.tv = t.map asCells
  s : D.sv = s.map asCells
  one : D.d.length = 1
  noCluster : D.cluster = none

/-- A simulator returns the arrays `x` and `rest`, or a frame with these columns and the given names, or a data object that holds
the arrays in their roles; anything else is rejected. -/
structure Returns (f : ReturnType → Except Exc (SimOut n)) (x rest : List (Fin n → ℝ)) (names : List String)
    (cols : List (Fin n → ℝ)) (y d : Fin n → ℝ) (z : Option (List (Fin n → ℝ))) (t s : Option (Fin n → ℝ)) : Prop where
  array : f .array = .ok (.arrays x rest)
  frame : ∃ F D, f .frame = .ok (.frame F) ∧ f .data = .ok (.data F D) ∧ F.cols = names ∧ names.map F.col = cols.map asCells ∧
    HoldsArrays D y d x z t s
  other : f .other = .error .valueError

/-! ## Lemmas -/

theorem numbered_length (s : String) (k : ℕ) : (numbered s k).length = k := by simp [numbered]

theorem numbered_distinct (s : String) (k : ℕ) : (numbered s k).Nodup := numbered_nodup s k

theorem firstChar_numbered {s : String} (hs : s.toList ≠ []) {k : ℕ} {c : String} (h : c ∈ numbered s k) : firstChar c = firstChar s := by
  obtain ⟨i, -, rfl⟩ := List.mem_map.1 h
  exact firstChar_append _ _ hs

theorem numCells_names (l : List (String × (Fin n → ℝ))) : (numCells l).map Prod.fst = l.map Prod.fst := by
  simp [numCells, Function.comp_def]

theorem numCells_cols (l : List (String × (Fin n → ℝ))) : (numCells l).map Prod.snd = (l.map Prod.snd).map asCells := by
  simp only [numCells, List.map_map]
  rfl

theorem frame_col {l : List (String × (Fin n → ℝ))} (hl : (l.map Prod.fst).Nodup) {c : String} {f : Fin n → ℝ} (h : (c, f) ∈ l) :
    (frameOf (numCells l)).col c = asCells f :=
  frameOf_col (l := numCells l) (by rw [numCells_names]; exact hl) (p := (c, asCells f)) (List.mem_map.2 ⟨(c, f), h, rfl⟩)

theorem frame_cols {l m : List (String × (Fin n → ℝ))} (hl : (l.map Prod.fst).Nodup) (h : m ⊆ l) :
    (m.map Prod.fst).map (frameOf (numCells l)).col = (m.map Prod.snd).map asCells := by
  rw [List.map_map, List.map_map]
  apply List.map_congr_left
  intro c hc
  exact frame_col hl (h hc)

/-- The constructor accepts a frame without missing values and distinct roles. -/
theorem dataInit_accepts {F : Frame n} (hf : ∀ c ∈ F.cols, finiteCol (F.col c)) {xs : List String}
    {zs : Option (List String)} {ts ss : Option String} {z t s : ColArg}
    (hz : zArg F z = .ok zs) (ht : optArg F t = .ok ts) (hs : optArg F s = .ok ss)
    (hn : (["y"] ++ ["d"] ++ xs ++ zs.getD [] ++ ts.toList ++ ss.toList).Nodup)
    (hsub : ["y"] ++ ["d"] ++ xs ++ zs.getD [] ++ ts.toList ++ ss.toList ⊆ F.cols) :
    ∃ D, dataInit F none (simRoles xs z t s) = .ok D := by
  have hy : colStr F (.str "y") = .ok "y" := by
    simp only [colStr]
    rw [if_pos (hsub (by simp))]
  have hd : colList F (.str "d") = .ok ["d"] := by
    simp only [colList]
    rw [if_pos]
    intro c hc
    exact hsub (by simp at hc; simp [hc])
  have hx : colList F (.list xs) = .ok xs := by
    simp only [colList]
    rw [if_neg, if_pos]
    · intro c hc
      exact hsub (by simp [hc])
    · rw [not_not]
      refine hn.sublist ?_
      refine List.Sublist.trans ?_ (List.sublist_append_left _ _)
      refine List.Sublist.trans ?_ (List.sublist_append_left _ _)
      refine List.Sublist.trans ?_ (List.sublist_append_left _ _)
      exact List.sublist_append_right _ _
  have hdisj : ∀ T : DataState n, T.y = "y" → T.d = ["d"] → T.x = xs → T.z = zs → T.t = ts → T.s = ss → T.cluster = none →
      disjointAll T = true := by
    intro T h1 h2 h3 h4 h5 h6 h7
    apply disjoint_of_rolesValid F
    have hr : roleList T = ["y"] ++ ["d"] ++ xs ++ zs.getD [] ++ ts.toList ++ ss.toList := by
      unfold roleList
      rw [h1, h2, h3, h4, h5, h6, h7]
      simp
    exact ⟨by rw [hr]; exact hn, by rw [hr]; exact hsub⟩
  unfold dataInit
  simp only [clusterArg, bind, Except.bind]
  rw [if_neg (by simp)]
  simp only [simRoles, hy, hd, hz, ht, hs, xArg, hx]
  rw [if_neg]
  swap
  · have := hdisj { y := "y", d := ["d"], x := xs, z := zs, t := ts, s := ss, cluster := none,
                    useOther := true, force := .yes, yv := fun _ => .nan, zv := none, tv := none, sv := none,
                    dv := fun _ => .nan, xv := [], cv := ((none : Option (List String)).getD []).map F.col,
                    binTreats := [], binOut := false } rfl rfl rfl rfl rfl rfl rfl
    unfold disjointAll at this
    rw [Bool.and_eq_true] at this
    rw [this.1]
    simp
  simp only [checkBool, forceArg]
  rw [if_neg (not_not.2 fun c hc => hf c (hsub (by simp at hc; simp [hc]))), if_neg (not_not.2 (hf "y" (hsub (by simp))))]
  rw [setYZTS_finite' F]
  · simp only
    rw [setXDFirst_finite' F (tv := "d") (l := []) _ rfl]
    · simp only
      rw [if_pos (hdisj _ rfl rfl rfl rfl rfl rfl rfl)]
      exact ⟨_, rfl⟩
    · intro c hc
      apply hf c (hsub _)
      simp only [List.mem_append, List.mem_singleton] at hc ⊢
      tauto
  · intro c hc
    apply hf c (hsub _)
    simp only [List.mem_append, List.mem_singleton] at hc ⊢
    tauto

/-- What `simReturn` returns, given the roles. -/
theorem simReturn_spec {x : List (Fin n → ℝ)} {xName : String} {cols : List (String × (Fin n → ℝ))} {y d : Fin n → ℝ}
    {zc : Option (List (String × (Fin n → ℝ)))} {tc sc : Option (String × (Fin n → ℝ))} {z t s : ColArg}
    (hn : (numbered xName x.length ++ cols.map Prod.fst).Nodup) (hy : ("y", y) ∈ cols) (hd : ("d", d) ∈ cols)
    (hzc : ∀ l ∈ zc, l ⊆ cols) (htc : ∀ c ∈ tc, c ∈ cols) (hsc : ∀ c ∈ sc, c ∈ cols)
    (hz : ∀ F : Frame n, cols.map Prod.fst ⊆ F.cols → zArg F z = .ok (zc.map (List.map Prod.fst)))
    (ht : ∀ F : Frame n, cols.map Prod.fst ⊆ F.cols → optArg F t = .ok (tc.map Prod.fst))
    (hs : ∀ F : Frame n, cols.map Prod.fst ⊆ F.cols → optArg F s = .ok (sc.map Prod.fst))
    (hr : (["y"] ++ ["d"] ++ (zc.map (List.map Prod.fst)).getD [] ++ (tc.map Prod.fst).toList ++ (sc.map Prod.fst).toList).Nodup) :
    Returns (fun rt => simReturn rt x xName cols none (simRoles (numbered xName x.length) z t s)) x (cols.map Prod.snd)
      (numbered xName x.length ++ cols.map Prod.fst) (x ++ cols.map Prod.snd) y d (zc.map (List.map Prod.snd)) (tc.map Prod.snd)
      (sc.map Prod.snd) := by
  have hzip : ((numbered xName x.length).zip x).map Prod.fst = numbered xName x.length := map_fst_zip (numbered_length _ _)
  have hzip2 : ((numbered xName x.length).zip x).map Prod.snd = x := List.map_snd_zip (by rw [numbered_length])
  set L := (numbered xName x.length).zip x ++ cols with hL
  have hnames : L.map Prod.fst = numbered xName x.length ++ cols.map Prod.fst := by rw [hL, List.map_append, hzip]
  have hl : (L.map Prod.fst).Nodup := by rw [hnames]; exact hn
  have hFc : (frameOf (numCells L)).cols = numbered xName x.length ++ cols.map Prod.fst := (numCells_names L).trans hnames
  have hsub : cols.map Prod.fst ⊆ (frameOf (numCells L)).cols := by rw [hFc]; exact List.subset_append_right _ _
  have hcols : cols ⊆ L := List.subset_append_right _ _
  have hfin : ∀ c ∈ (frameOf (numCells L)).cols, finiteCol ((frameOf (numCells L)).col c) := by
    intro c hc
    have hc' : c ∈ L.map Prod.fst := by rw [← numCells_names]; exact hc
    obtain ⟨q, hq, rfl⟩ := List.mem_map.1 hc'
    rw [frame_col hl (f := q.2) hq]
    exact fun i => ⟨_, rfl⟩
  have hz' := hz _ hsub
  have ht' := ht _ hsub
  have hs' := hs _ hsub
  have memz : ∀ c ∈ (zc.map (List.map Prod.fst)).getD [], c ∈ cols.map Prod.fst := by
    intro c hc
    cases zc with
    | none => simp at hc
    | some l => exact List.map_subset _ (hzc l rfl) hc
  have memt : ∀ c ∈ (tc.map Prod.fst).toList, c ∈ cols.map Prod.fst := by
    intro c hc
    cases tc with
    | none => simp at hc
    | some l =>
      simp only [Option.map_some, Option.toList_some, List.mem_singleton] at hc
      exact hc ▸ List.mem_map_of_mem (htc l rfl)
  have mems : ∀ c ∈ (sc.map Prod.fst).toList, c ∈ cols.map Prod.fst := by
    intro c hc
    cases sc with
    | none => simp at hc
    | some l =>
      simp only [Option.map_some, Option.toList_some, List.mem_singleton] at hc
      exact hc ▸ List.mem_map_of_mem (hsc l rfl)
  have memy : "y" ∈ cols.map Prod.fst := List.mem_map_of_mem (f := Prod.fst) hy
  have memd : "d" ∈ cols.map Prod.fst := List.mem_map_of_mem (f := Prod.fst) hd
  have hrn : (["y"] ++ ["d"] ++ numbered xName x.length ++ (zc.map (List.map Prod.fst)).getD [] ++ (tc.map Prod.fst).toList ++
      (sc.map Prod.fst).toList).Nodup := by
    have : (numbered xName x.length ++ (["y"] ++ ["d"] ++ (zc.map (List.map Prod.fst)).getD [] ++ (tc.map Prod.fst).toList ++
        (sc.map Prod.fst).toList)).Nodup := by
      refine List.nodup_append.2 ⟨numbered_distinct _ _, hr, ?_⟩
      intro a ha b hb hab
      subst hab
      have hmem : a ∈ cols.map Prod.fst := by
        simp only [List.mem_append, List.mem_singleton] at hb
        rcases hb with (((hb | hb) | hb) | hb) | hb
        · exact hb ▸ memy
        · exact hb ▸ memd
        · exact memz a hb
        · exact memt a hb
        · exact mems a hb
      exact (List.nodup_append.1 hn).2.2 a ha a hmem rfl
    refine List.Perm.nodup ?_ this
    rw [List.perm_iff_count]
    intro c
    simp only [List.count_append]
    omega
  have hrs : ["y"] ++ ["d"] ++ numbered xName x.length ++ (zc.map (List.map Prod.fst)).getD [] ++ (tc.map Prod.fst).toList ++
      (sc.map Prod.fst).toList ⊆ (frameOf (numCells L)).cols := by
    intro c hc
    simp only [List.mem_append, List.mem_singleton] at hc
    rcases hc with ((((hc | hc) | hc) | hc) | hc) | hc
    · exact hsub (hc ▸ memy)
    · exact hsub (hc ▸ memd)
    · rw [hFc]
      exact List.mem_append_left _ hc
    · exact hsub (memz c hc)
    · exact hsub (memt c hc)
    · exact hsub (mems c hc)
  obtain ⟨D, hD⟩ := dataInit_accepts hfin hz' ht' hs' hrn hrs
  refine ⟨rfl, ⟨frameOf (numCells L), D, rfl, ?_, hFc, ?_, ?_⟩, rfl⟩
  · simp only [simReturn, ← hL, hD, bind, Except.bind]
    rfl
  · rw [← hnames]
    refine (frame_cols hl (List.Subset.refl L)).trans ?_
    rw [hL, List.map_append, hzip2]
  · obtain ⟨-, -, ⟨f1, f2, f3, f4, -, -⟩, -, -, ey, ed, ez, et, es, ec, ex, -, tv, l, htl, hdv, hxv⟩ :=
      dataInit_ok (F := frameOf (numCells L)) (by rw [hFc]; exact hn) hD
    have e1 : D.y = "y" := by
      simp only [simRoles, colStr] at ey
      split_ifs at ey
      exact (Except.ok.inj ey).symm
    have e2 : D.d = ["d"] := by
      simp only [simRoles, colList] at ed
      split_ifs at ed
      exact (Except.ok.inj ed).symm
    have e3 : D.x = numbered xName x.length := by
      simp only [simRoles, xArg] at ex
      exact colList_list ex
    have e4 : D.z = zc.map (List.map Prod.fst) := Except.ok.inj (ez.symm.trans hz')
    have e5 : D.t = tc.map Prod.fst := Except.ok.inj (et.symm.trans ht')
    have e6 : D.s = sc.map Prod.fst := Except.ok.inj (es.symm.trans hs')
    rw [e2] at htl
    obtain ⟨rfl, rfl⟩ : tv = "d" ∧ l = [] := by
      injection htl with a b
      exact ⟨a.symm, b.symm⟩
    refine ⟨?_, ?_, ?_, ?_, ?_, ?_, by rw [e2]; rfl, (Except.ok.inj ec).symm⟩
    · rw [f1, e1]
      exact frame_col hl (hcols hy)
    · rw [hdv]
      exact frame_col hl (hcols hd)
    · rw [hxv, e3]
      have := frame_cols hl (m := (numbered xName x.length).zip x) (List.subset_append_left _ _)
      rw [hzip, hzip2] at this
      rw [← this]
      simp
    · rw [f2, e4]
      cases zc with
      | none => rfl
      | some m =>
        simp only [Option.map_some]
        rw [frame_cols hl fun a ha => hcols (hzc m rfl ha)]
    · rw [f3, e5]
      cases tc with
      | none => rfl
      | some m =>
        simp only [Option.map_some]
        rw [frame_col hl (f := m.2) (hcols (htc m rfl))]
    · rw [f4, e6]
      cases sc with
      | none => rfl
      | some m =>
        simp only [Option.map_some]
        rw [frame_col hl (f := m.2) (hcols (hsc m rfl))]

/-! ## The simulators -/

theorem matCols_length (X : Fin n → Fin p → ℝ) : (matCols X).length = p := by simp [matCols]

theorem names_distinct {s : String} {k : ℕ} {l : List String} (hs : s.toList ≠ []) (hl : l.Nodup) (h : ∀ c ∈ l, firstChar c ≠ firstChar s) :
    (numbered s k ++ l).Nodup :=
  List.nodup_append.2 ⟨numbered_distinct _ _, hl, fun _ ha b hb hab => h b hb (hab ▸ firstChar_numbered hs ha)⟩

theorem zArg_str {F : Frame n} {c : String} (h : c ∈ F.cols) : zArg F (.str c) = .ok (some [c]) := by
  simp only [zArg, colList]
  rw [if_pos]
  · rfl
  · intro a ha
    simp at ha
    exact ha ▸ h

theorem zArg_list {F : Frame n} {l : List String} (h : l.Nodup) (hs : l ⊆ F.cols) : zArg F (.list l) = .ok (some l) := by
  simp only [zArg, colList]
  rw [if_neg (not_not.2 h), if_pos hs]
  rfl

theorem optArg_str {F : Frame n} {c : String} (h : c ∈ F.cols) : optArg F (.str c) = .ok (some c) := by
  simp only [optArg, colStr]
  rw [if_pos h]
  rfl

/-- Outcome and treatment only. -/
theorem simReturn_yd (X : Fin n → Fin p → ℝ) {xName : String} (hx : xName.toList ≠ []) (h : firstChar xName ≠ some 'y' ∧ firstChar xName ≠ some 'd')
    (y d : Fin n → ℝ) :
    Returns (fun rt => simReturn rt (matCols X) xName [("y", y), ("d", d)] none (simRoles (numbered xName p) .none .none .none))
      (matCols X) [y, d] (numbered xName p ++ ["y", "d"]) (matCols X ++ [y, d]) y d none none none := by
  have := simReturn_spec (x := matCols X) (xName := xName) (cols := [("y", y), ("d", d)]) (y := y) (d := d) (zc := none) (tc := none) (sc := none)
    (z := .none) (t := .none) (s := .none) (names_distinct hx (by simp) fun c hc => ?_) (by simp) (by simp) (by simp) (by simp) (by simp)
    (fun F _ => rfl) (fun F _ => rfl) (fun F _ => rfl) (by simp)
  · rw [matCols_length] at this
    exact this
  · simp only [List.map_cons, List.map_nil, List.mem_cons, List.not_mem_nil, or_false] at hc
    rcases hc with rfl | rfl
    · exact fun e => h.1 e.symm
    · exact fun e => h.2 e.symm

/-- Outcome, treatment and an instrument. -/
theorem simReturn_ydz (X : Fin n → Fin p → ℝ) (y d z : Fin n → ℝ) :
    Returns (fun rt => simReturn rt (matCols X) "X" [("y", y), ("d", d), ("z", z)] none (simRoles (numbered "X" p) (.str "z") .none .none))
      (matCols X) [y, d, z] (numbered "X" p ++ ["y", "d", "z"]) (matCols X ++ [y, d, z]) y d (some [z]) none none := by
  have := simReturn_spec (x := matCols X) (xName := "X") (cols := [("y", y), ("d", d), ("z", z)]) (y := y) (d := d) (zc := some [("z", z)])
    (tc := none) (sc := none) (z := .str "z") (t := .none) (s := .none) (names_distinct (by decide) (by simp) fun c hc => ?_) (by simp)
    (by simp) (by simp) (by simp) (by simp) (fun F hF => zArg_str (hF (by simp))) (fun F _ => rfl) (fun F _ => rfl) (by simp)
  · rw [matCols_length] at this
    exact this
  · simp only [List.map_cons, List.map_nil, List.mem_cons, List.not_mem_nil, or_false] at hc
    rcases hc with rfl | rfl | rfl <;> decide

/-- **C80.** `make_plr_CCDDHNR2018`: what is returned, for every sample size and number of covariates; fewer than three covariates are
an `IndexError`. -/
theorem C80_returns_plr_ccddhnr (a : CcdArgs) (X : Fin n → Fin p → ℝ) (v ζ : Fin n → ℝ) :
    (∀ h : 2 < p, ∃ y d : Fin n → ℝ,
      (∀ i, d i = a.a0 * X i ⟨0, by omega⟩ + a.a1 * logistic (X i ⟨2, h⟩) + a.s1 * v i) ∧
      (∀ i, y i = a.alpha * d i + a.b0 * logistic (X i ⟨0, by omega⟩) + a.b1 * X i ⟨2, h⟩ + a.s2 * ζ i) ∧
      Returns (fun rt => makePlrCcd a rt X v ζ) (matCols X) [y, d] (numbered "X" p ++ ["y", "d"]) (matCols X ++ [y, d]) y d none none none) ∧
    (p ≤ 2 → ∀ rt, makePlrCcd a rt X v ζ = .error .indexError) := by
  refine ⟨fun h => ?_, fun h rt => ?_⟩
  · refine ⟨_, _, fun i => rfl, fun i => rfl, ?_⟩
    unfold makePlrCcd
    simp only [dif_pos h]
    exact simReturn_yd X (by decide) (by decide) _ _
  · unfold makePlrCcd
    rw [dif_neg (by omega)]

/-- **C80.** `make_plr_turrell2018`: what is returned. -/
theorem C80_returns_plr_turrell (theta nu gamma : ℝ) (X : Fin n → Fin p → ℝ) (v ζ : Fin n → ℝ) :
    ∃ y d : Fin n → ℝ, (∀ i, d i = simM (dotp (X i) (harmonic p)) nu gamma + v i) ∧
      (∀ i, y i = theta * d i + Real.sin (dotp (X i) (harmonic p)) ^ 2 + ζ i) ∧
      Returns (fun rt => makePlrTurrell theta nu gamma rt X v ζ) (matCols X) [y, d] (numbered "X" p ++ ["y", "d"]) (matCols X ++ [y, d]) y d
        none none none :=
  ⟨_, _, fun _ => rfl, fun _ => rfl, simReturn_yd X (by decide) (by decide) _ _⟩

/-- **C80.** `make_irm_data`: what is returned. -/
theorem C80_returns_irm (theta R2d R2y : ℝ) (v ζ : Fin n → ℝ) (X : Fin n → Fin p → ℝ) :
    ∃ y d : Fin n → ℝ,
      (∀ i, d i = if v i < logistic (dotp (X i) fun j => invSquares p j *
        Real.sqrt (Real.pi ^ 2 / 3 * R2d / ((1 - R2d) * quadForm (toeplitz 0.5 p) (invSquares p)))) then 1 else 0) ∧
      (∀ i, y i = d i * theta + d i * dotp (X i) (fun j => invSquares p j *
        Real.sqrt (R2y / ((1 - R2y) * quadForm (toeplitz 0.5 p) (invSquares p)))) + ζ i) ∧
      Returns (fun rt => makeIrm theta R2d R2y rt v ζ X) (matCols X) [y, d] (numbered "X" p ++ ["y", "d"]) (matCols X ++ [y, d]) y d
        none none none :=
  ⟨_, _, fun _ => rfl, fun _ => rfl, simReturn_yd X (by decide) (by decide) _ _⟩

/-- **C80.** `make_iivm_data`: what is returned. -/
theorem C80_returns_iivm (theta alphaX : ℝ) (u v : Fin n → ℝ) (X : Fin n → Fin p → ℝ) (z : Fin n → ℝ) :
    ∃ y d : Fin n → ℝ, (∀ i, d i = if 0 < alphaX * z i + v i then 1 else 0) ∧
      (∀ i, y i = d i * theta + dotp (X i) (invSquares p) + u i) ∧
      Returns (fun rt => makeIivm theta alphaX rt u v X z) (matCols X) [y, d, z] (numbered "X" p ++ ["y", "d", "z"]) (matCols X ++ [y, d, z])
        y d (some [z]) none none :=
  ⟨_, _, fun _ => rfl, fun _ => rfl, simReturn_ydz X _ _ _⟩

/-- **C80.** `_make_pliv_data`: what is returned. -/
theorem C80_returns_pliv (theta gammaZ : ℝ) (X : Fin n → Fin p → ℝ) (e v ζ : Fin n → ℝ) :
    ∃ y d z : Fin n → ℝ, (∀ i, z i = simM (dotp (X i) (harmonic p)) + e i) ∧
      (∀ i, d i = simM (gammaZ * z i + dotp (X i) (harmonic p)) + v i) ∧
      (∀ i, y i = theta * d i + Real.sin (dotp (X i) (harmonic p)) ^ 2 + ζ i) ∧
      Returns (fun rt => makePliv theta gammaZ rt X e v ζ) (matCols X) [y, d, z] (numbered "X" p ++ ["y", "d", "z"]) (matCols X ++ [y, d, z])
        y d (some [z]) none none :=
  ⟨_, _, _, fun _ => rfl, fun _ => rfl, fun _ => rfl, simReturn_ydz X _ _ _⟩

/-- **C80.** `make_pliv_CHS2015`: what is returned; more instruments than covariates are an `AssertionError`. -/
theorem C80_returns_pliv_chs {q : ℕ} (alpha : ℝ) (X : Fin n → Fin p → ℝ) (eps u : Fin n → ℝ) (xi : Fin n → Fin q → ℝ) :
    (∀ h : q ≤ p, ∃ (y d : Fin n → ℝ) (z : Fin n → Fin q → ℝ), (∀ i j, z i j = X i (Fin.castLE h j) + xi i j) ∧
      (∀ i, d i = dotp (X i) (invSquares p) + dotp (z i) (invSquares q) + u i) ∧
      (∀ i, y i = alpha * d i + dotp (X i) (invSquares p) + eps i) ∧
      Returns (fun rt => makePlivChs alpha rt X eps u xi) (matCols X) ([y, d] ++ matCols z) (numbered "X" p ++ (["y", "d"] ++ numbered "Z" q))
        (matCols X ++ ([y, d] ++ matCols z)) y d (some (matCols z)) none none) ∧
    (p < q → ∀ rt, makePlivChs alpha rt X eps u xi = .error .assertion) := by
  refine ⟨fun h => ?_, fun h rt => ?_⟩
  · refine ⟨_, _, _, fun i j => rfl, fun i => rfl, fun i => rfl, ?_⟩
    unfold makePlivChs
    simp only [dif_pos h]
    generalize (fun i => alpha * (dotp (X i) (invSquares p) + dotp (fun j => X i (Fin.castLE h j) + xi i j) (invSquares q) + u i) +
      dotp (X i) (invSquares p) + eps i) = y
    generalize (fun i => dotp (X i) (invSquares p) + dotp (fun j => X i (Fin.castLE h j) + xi i j) (invSquares q) + u i) = d
    generalize hz : (fun (i : Fin n) (j : Fin q) => X i (Fin.castLE h j) + xi i j) = z
    have e1 : ((numbered "Z" q).zip (matCols z)).map Prod.fst = numbered "Z" q := map_fst_zip (by rw [numbered_length, matCols_length])
    have e2 : ((numbered "Z" q).zip (matCols z)).map Prod.snd = matCols z := List.map_snd_zip (by rw [numbered_length, matCols_length])
    have fz : ∀ c ∈ numbered "Z" q, firstChar c = some 'Z' := fun c hc => firstChar_numbered (by decide) hc
    have nd : (["y", "d"] ++ numbered "Z" q).Nodup := by
      refine List.nodup_append.2 ⟨by simp, numbered_distinct _ _, fun a ha b hb hab => ?_⟩
      have := fz b hb
      rw [← hab] at this
      simp only [List.mem_cons, List.not_mem_nil, or_false] at ha
      rcases ha with rfl | rfl <;> revert this <;> decide
    have := simReturn_spec (x := matCols X) (xName := "X") (cols := [("y", y), ("d", d)] ++ (numbered "Z" q).zip (matCols z)) (y := y) (d := d)
      (zc := some ((numbered "Z" q).zip (matCols z))) (tc := none) (sc := none) (z := .list (numbered "Z" q)) (t := .none) (s := .none)
      (names_distinct (by decide) (by rw [List.map_append, e1]; exact nd) fun c hc => ?_) (by simp) (by simp) (fun l hl => ?_) (by simp) (by simp)
      (fun F hF => ?_) (fun F _ => rfl) (fun F _ => rfl) (by simpa [e1] using nd)
    · rw [matCols_length] at this
      simpa [e1, e2] using this
    · rw [List.map_append, e1, List.mem_append] at hc
      rcases hc with hc | hc
      · simp only [List.map_cons, List.map_nil, List.mem_cons, List.not_mem_nil, or_false] at hc
        rcases hc with rfl | rfl <;> decide
      · rw [fz c hc]
        decide
    · obtain rfl : (numbered "Z" q).zip (matCols z) = l := by simpa using hl
      exact List.subset_append_right _ _
    · rw [zArg_list (numbered_distinct _ _)]
      · simp [e1]
      · refine List.Subset.trans ?_ hF
        rw [List.map_append, e1]
        exact List.subset_append_right _ _
  · unfold makePlivChs
    rw [dif_neg (by omega)]

/-- Outcome, treatment, selection and possibly an instrument. -/
theorem simReturn_ssm (X : Fin n → Fin p → ℝ) (mar : Bool) (y d z s : Fin n → ℝ) :
    Returns (fun rt => if rt = .array then .ok (.arrays (matCols X) [y, d, z, s])
      else if mar then
        simReturn rt (matCols X) "X" [("y", y), ("d", d), ("s", s)] none (simRoles (numbered "X" p) .none .none (.str "s"))
      else
        simReturn rt (matCols X) "X" [("y", y), ("d", d), ("z", z), ("s", s)] none (simRoles (numbered "X" p) (.str "z") .none (.str "s")))
      (matCols X) [y, d, z, s] (numbered "X" p ++ if mar then ["y", "d", "s"] else ["y", "d", "z", "s"])
      (matCols X ++ if mar then [y, d, s] else [y, d, z, s]) y d (if mar then none else some [z]) none (some s) := by
  cases mar with
  | true =>
    have := simReturn_spec (x := matCols X) (xName := "X") (cols := [("y", y), ("d", d), ("s", s)]) (y := y) (d := d) (zc := none)
      (tc := none) (sc := some ("s", s)) (z := .none) (t := .none) (s := .str "s") (names_distinct (by decide) (by simp) fun c hc => ?_) (by simp)
      (by simp) (by simp) (by simp) (by simp) (fun F _ => rfl) (fun F _ => rfl) (fun F hF => optArg_str (hF (by simp))) (by simp)
    · rw [matCols_length] at this
      obtain ⟨-, h2, h3⟩ := this
      exact ⟨by simp, by simpa using h2, by simpa using h3⟩
    · simp only [List.map_cons, List.map_nil, List.mem_cons, List.not_mem_nil, or_false] at hc
      rcases hc with rfl | rfl | rfl <;> decide
  | false =>
    have := simReturn_spec (x := matCols X) (xName := "X") (cols := [("y", y), ("d", d), ("z", z), ("s", s)]) (y := y) (d := d)
      (zc := some [("z", z)]) (tc := none) (sc := some ("s", s)) (z := .str "z") (t := .none) (s := .str "s")
      (names_distinct (by decide) (by simp) fun c hc => ?_) (by simp)
      (by simp) (by simp) (by simp) (by simp) (fun F hF => zArg_str (hF (by simp))) (fun F _ => rfl) (fun F hF => optArg_str (hF (by simp)))
      (by simp)
    · rw [matCols_length] at this
      obtain ⟨-, h2, h3⟩ := this
      exact ⟨by simp, by simpa using h2, by simpa using h3⟩
    · simp only [List.map_cons, List.map_nil, List.mem_cons, List.not_mem_nil, or_false] at hc
      rcases hc with rfl | rfl | rfl | rfl <;> decide

/-- **C80.** `make_ssm_data`: what is returned.  With `mar` the instrument is not part of the frame and of the data object. -/
theorem C80_returns_ssm (theta : ℝ) (mar : Bool) (e0 e1 : Fin n → ℝ) (X : Fin n → Fin p → ℝ) (w z : Fin n → ℝ) :
    ∃ y d s : Fin n → ℝ, (∀ i, d i = if 0 < dotp (X i) (fun j => 0.4 * invSquares p j) + w i then 1 else 0) ∧
      (∀ i, s i = if 0 < dotp (X i) (fun j => 0.4 * invSquares p j) + d i + (if mar then 0 else 1) * z i + e0 i then 1 else 0) ∧
      (∀ i, y i = if s i = 0 then 0 else dotp (X i) (fun j => 0.4 * invSquares p j) + theta * d i + e1 i) ∧
      Returns (fun rt => makeSsm theta mar rt e0 e1 X w z) (matCols X) [y, d, z, s]
        (numbered "X" p ++ if mar then ["y", "d", "s"] else ["y", "d", "z", "s"])
        (matCols X ++ if mar then [y, d, s] else [y, d, z, s]) y d (if mar then none else some [z]) none (some s) := by
  have hb : (fun j : Fin p => 0.4 / ((j : ℝ) + 1) ^ 2) = fun j => 0.4 * invSquares p j := by
    funext j
    unfold invSquares
    ring
  refine ⟨_, _, _, fun i => rfl, fun i => rfl, fun i => rfl, ?_⟩
  unfold makeSsm
  simp only [hb]
  exact simReturn_ssm X mar _ _ _ _

/-- **C80.** `make_did_SZ2020`: what is returned for a valid design: the standardised transformed covariates whatever the design, the
change of the outcome for panel data, the outcome of the drawn period for repeated cross-sections. -/
theorem C80_returns_did {dgp : ℤ} (xi lamT : ℝ) (w : SzDraws n) :
    (dgp ∈ Finset.Icc (1 : ℤ) 6 → ∃ f, szFeatures dgp w.X = .ok f ∧
      ∃ y y1 : Fin n → ℝ, (∀ i, y1 i = if (szTable xi lamT f w).d i = 1 then (szTable xi lamT f w).y1d1 i else (szTable xi lamT f w).y1d0 i) ∧
        (∀ i, y i = y1 i - (szTable xi lamT f w).y0 i) ∧
        Returns (fun rt => makeDid dgp false xi lamT rt w) (matCols (zScaled w.X)) [y, (szTable xi lamT f w).d]
          (numbered "Z" 4 ++ ["y", "d"]) (matCols (zScaled w.X) ++ [y, (szTable xi lamT f w).d]) y (szTable xi lamT f w).d none none none ∧
        ∃ yt : Fin n → ℝ, (∀ i, yt i = if (szTable xi lamT f w).t i = 1 then y1 i else (szTable xi lamT f w).y0 i) ∧
        Returns (fun rt => makeDid dgp true xi lamT rt w) (matCols (zScaled w.X)) [yt, (szTable xi lamT f w).d, (szTable xi lamT f w).t]
          (numbered "Z" 4 ++ ["y", "d", "t"]) (matCols (zScaled w.X) ++ [yt, (szTable xi lamT f w).d, (szTable xi lamT f w).t]) yt
          (szTable xi lamT f w).d none (some (szTable xi lamT f w).t) none) ∧
    (dgp ∉ Finset.Icc (1 : ℤ) 6 → ∀ cross rt, makeDid dgp cross xi lamT rt w = .error .valueError) := by
  constructor
  · intro h
    have hf : ∃ f, szFeatures dgp w.X = .ok f := by
      rw [Finset.mem_Icc] at h
      obtain ⟨h1, h2⟩ := h
      unfold szFeatures
      interval_cases dgp <;> exact ⟨_, rfl⟩
    obtain ⟨f, hf⟩ := hf
    refine ⟨f, hf, ?_⟩
    have hd : ∀ i, (szTable xi lamT f w).d i = 0 ∨ (szTable xi lamT f w).d i = 1 := by
      intro i
      simp only [szTable]
      split_ifs <;> simp
    have ht : ∀ i, (szTable xi lamT f w).t i = 0 ∨ (szTable xi lamT f w).t i = 1 := by
      intro i
      simp only [szTable]
      split_ifs <;> simp
    refine ⟨fun i => ((szTable xi lamT f w).d i * (szTable xi lamT f w).y1d1 i + (1 - (szTable xi lamT f w).d i) * (szTable xi lamT f w).y1d0 i) -
      (szTable xi lamT f w).y0 i, fun i => (szTable xi lamT f w).d i * (szTable xi lamT f w).y1d1 i +
      (1 - (szTable xi lamT f w).d i) * (szTable xi lamT f w).y1d0 i, fun i => ?_, fun i => rfl, ?_,
      fun i => (szTable xi lamT f w).t i * ((szTable xi lamT f w).d i * (szTable xi lamT f w).y1d1 i +
      (1 - (szTable xi lamT f w).d i) * (szTable xi lamT f w).y1d0 i) + (1 - (szTable xi lamT f w).t i) * (szTable xi lamT f w).y0 i,
      fun i => ?_, ?_⟩
    · rcases hd i with e | e <;> simp [e]
    · simp only [makeDid, hf, bind, Except.bind]
      exact simReturn_yd (zScaled w.X) (by decide) (by decide) _ _
    · rcases ht i with e | e <;> simp [e]
    · simp only [makeDid, hf, bind, Except.bind]
      generalize (szTable xi lamT f w) = T
      generalize (fun i => T.t i * (T.d i * T.y1d1 i + (1 - T.d i) * T.y1d0 i) + (1 - T.t i) * T.y0 i) = y
      have := simReturn_spec (x := matCols (zScaled w.X)) (xName := "Z") (cols := [("y", y), ("d", T.d), ("t", T.t)]) (y := y) (d := T.d)
        (zc := none) (tc := some ("t", T.t)) (sc := none) (z := .none) (t := .str "t") (s := .none)
        (names_distinct (by decide) (by simp) fun c hc => ?_) (by simp)
        (by simp) (by simp) (by simp) (by simp) (fun F _ => rfl) (fun F hF => optArg_str (hF (by simp))) (fun F _ => rfl) (by simp)
      · rw [matCols_length] at this
        exact this
      · simp only [List.map_cons, List.map_nil, List.mem_cons, List.not_mem_nil, or_false] at hc
        rcases hc with rfl | rfl | rfl <;> decide
  · intro h cross rt
    have hf : szFeatures dgp w.X = .error .valueError := by
      unfold szFeatures
      rw [if_neg, if_neg, if_neg, if_neg, if_neg, if_neg]
      all_goals
        rintro rfl
        exact h (by decide)
    simp only [makeDid, hf, bind, Except.bind]

end DML
