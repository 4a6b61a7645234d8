import Verif.ContrastProps
import Verif.DrawSplitProps

/-!
# C28: which external predictions a `DoubleMLAPOS` object accepts
-/

namespace DML
variable {n : ℕ} {P M : Type} {L : Type} [DecidableEq L]

/-- What `DoubleMLAPOS.fit` takes as external predictions: nothing, or a dictionary whose keys are exactly the treatment levels
and whose values are dictionaries over the three learners. -/
def ApoExt.Valid (levels : List L) : ApoExt L → Prop
  | .none => True
  | .notDict => False
  | .dict items => (∀ l v, (l, v) ∈ items → l ∈ levels ∧ ∃ inner : List (String × ExtVal), v = .dict inner ∧
      ∀ k w, (k, w) ∈ inner → k ∈ ["ml_g_d_lvl0", "ml_g_d_lvl1", "ml_m"]) ∧ ∀ l ∈ levels, ∃ v, (l, v) ∈ items

theorem apoExtArgs_ok_iff {levels : List L} {dCol : String} {e : ApoExt L} :
    (∃ es, apoExtArgs levels dCol e = .ok es) ↔ e.Valid levels := by
  cases e with
  | none => exact ⟨fun _ => trivial, fun _ => ⟨_, rfl⟩⟩
  | notDict => exact ⟨fun ⟨_, h⟩ => (by cases h), fun h => h.elim⟩
  | dict items =>
    constructor
    · rintro ⟨es, h⟩
      have h' := C28_apos_partial h
      unfold apoExtArgs at h
      dsimp only at h
      obtain ⟨_, hc, -⟩ := bind_ok h
      unfold checkApoExt at hc
      dsimp only at hc
      split_ifs at hc with hs
      obtain ⟨r, hr, -⟩ := bind_ok hc
      refine ⟨fun l v hm => ⟨hs (List.mem_map.2 ⟨_, hm, rfl⟩), ?_⟩, fun l hl => ?_⟩
      · have : ∃ u, checkApoInner v = .ok u := by
          rw [mapM_ok_iff] at hr
          obtain ⟨t, ht⟩ := List.getElem?_of_mem hm
          obtain ⟨ht', he⟩ := List.getElem?_eq_some_iff.1 ht
          have := (List.forall₂_iff_get.1 hr).2 t ht' (by rw [← hr.length_eq]; exact ht')
          simp only [List.get_eq_getElem, he] at this
          exact ⟨_, this⟩
        obtain ⟨u, hu⟩ := this
        cases v with
        | notDict => cases hu
        | dict inner =>
          unfold checkApoInner at hu
          dsimp only at hu
          split_ifs at hu with hk
          exact ⟨inner, rfl, fun k w hw => hk (List.mem_map.2 ⟨_, hw, rfl⟩)⟩
      · obtain ⟨i, hi⟩ := List.getElem?_of_mem hl
        obtain ⟨inner, _, hx, -⟩ := h'.2 i l hi
        exact ⟨_, lookupLevel_mem hx⟩
    · rintro ⟨h1, h2⟩
      have hc : checkApoExt levels (.dict items) = .ok () := by
        unfold checkApoExt
        dsimp only
        rw [if_pos]
        · have : ∃ r, (items.mapM fun kv => checkApoInner kv.2) = .ok r := by
            refine (mapM_unit_ok_iff _ _).2 fun kv hkv => ?_
            obtain ⟨-, inner, hv, hk⟩ := h1 kv.1 kv.2 hkv
            rw [hv]
            unfold checkApoInner
            dsimp only
            rw [if_pos]
            · exact ⟨_, rfl⟩
            · intro k hk'
              obtain ⟨⟨k', w⟩, hw, rfl⟩ := List.mem_map.1 hk'
              exact hk k' w hw
          obtain ⟨r, hr⟩ := this
          rw [hr]; rfl
        · intro l hl
          obtain ⟨⟨l', v⟩, hv, rfl⟩ := List.mem_map.1 hl
          exact (h1 l' v hv).1
      have : ∃ es, levels.mapM (renameApoExt dCol items) = .ok es := by
        refine (mapM_unit_ok_iff _ _).2 fun l hl => ?_
        unfold renameApoExt
        cases hx : lookupLevel l items with
        | none =>
          obtain ⟨v, hv⟩ := h2 l hl
          exact absurd (List.mem_map.2 ⟨_, hv, rfl⟩) (lookupLevel_none.1 hx)
        | some x =>
          obtain ⟨-, inner, rfl, -⟩ := h1 l x (lookupLevel_mem hx)
          exact ⟨_, rfl⟩
      obtain ⟨es, hes⟩ := this
      exact ⟨es, by unfold apoExtArgs; dsimp only; rw [hc]; exact hes⟩

/-- **C28.** `DoubleMLAPOS.fit` rejects external predictions with an unknown treatment level, an unknown learner, a value that is
no dictionary or a missing treatment level, and a rejected call leaves the object unchanged; all others reach the sub-models. -/
theorem C28_apos_rejects {F : Frame n} {levels : List L} {dCol : String} {cs : List (SubClass n P M)} {s : Multi n P M} {a : FitArgs}
    {e : ApoExt L} : (¬ e.Valid levels → ∃ x, apoFit F levels dCol cs s a e = (s, .error x)) ∧
      (e.Valid levels → ∃ es : List ExtArg, es.length = levels.length ∧ apoFit F levels dCol cs s a e =
        multiFit F (List.zipWith (fun c x => (c, { a with ext := x })) cs es) .ok s) := by
  unfold apoFit
  constructor
  · intro h
    rw [← apoExtArgs_ok_iff (dCol := dCol)] at h
    cases hx : apoExtArgs levels dCol e with
    | error x => exact ⟨x, rfl⟩
    | ok es => exact absurd ⟨es, hx⟩ h
  · intro h
    obtain ⟨es, hes⟩ := (apoExtArgs_ok_iff (dCol := dCol)).2 h
    rw [hes]
    exact ⟨es, apoExtArgs_length hes, rfl⟩

example : ¬ (ApoExt.dict [("2", .dict [])] : ApoExt String).Valid ["0", "1"] := by
  rintro ⟨h, -⟩
  simpa using (h "2" _ (List.mem_singleton_self _)).1

end DML
