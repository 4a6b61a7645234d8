import Verif.Treatments
import Verif.UnitsFitProps
import Verif.FitOkManyProps

/-!
# Several treatments are estimated like separate models (C85)
-/

namespace DML

open Finset

variable {n r : ℕ} {P M : Type}

theorem SeveralClass.linear {sp : LinSpec n P} (h : SeveralClass sp) : LinearScoreClass sp := by
  cases h with
  | plr k => exact .plr k
  | pliv k => exact .pliv k
  | plivMulti k zs => exact .plivMulti k zs
  | plivZ k => exact .plivZ k
  | plivXZ k => exact .plivXZ k

/-- **C85.** The results of treatment `tv` (number `j`) of a model with several treatments are those of the model with `tv` alone
that has the same splits and parameters and the other treatments as covariates: estimates, standard errors, scores, losses, stored
predictions and stored models of all repetitions, aggregated estimate and standard error, the parameter of the framework (all that
inference is based on) and the sensitivity elements. -/
theorem C85_separate {F : Frame n} {sp : LinSpec n P} (hsp : SeveralClass sp) {s s' : LinState n P} (hs : Shaped s) (hs' : Shaped s')
    {tv : String} (h : Alone F s s' tv) {j : ℕ} (hj : s.data.d[j]? = some tv) {a : FitArgs} (hok : (fit F sp s a).2 = .ok ())
    (hok' : (fit F sp s' a).2 = .ok ()) :
    let t := (fit F sp s a).1
    let t' := (fit F sp s' a).1
    (∀ k < s.nRep, (t.heap t.arr).coef j k = (t'.heap t'.arr).coef 0 k ∧ (t.heap t.arr).se j k = (t'.heap t'.arr).se 0 k ∧
      t.scores j k = t'.scores 0 k ∧ t.loss.map (fun f => f j k) = t'.loss.map (fun f => f 0 k) ∧
      (a.storePredictions = .bool true → t.preds.map (fun f => f j k) = t'.preds.map (fun f => f 0 k)) ∧
      (a.storeModels = .bool true → t.models.map (fun f => f j k) = t'.models.map (fun f => f 0 k))) ∧
    t.coef j = t'.coef 0 ∧ t.se j = t'.se 0 ∧
    ∃ A A' : FW n s.nRep, t.fw? = some ⟨s.nRep, A⟩ ∧ t'.fw? = some ⟨s.nRep, A'⟩ ∧ A.blocks.length = s.data.d.length ∧
      (∃ b, A'.blocks = [b] ∧ A.blocks[j]? = some b) ∧
      (sp.sensImpl = true → ∃ S S' B B', A.sens = some S ∧ A'.sens = some S' ∧ A.bench = some B ∧ A'.bench = some B' ∧
        S[j]? = S'[0]? ∧ B[j]? = B'[0]? ∧ S'.length = 1) := by
  intro t t'
  have hl := hsp.linear
  have hj' : j < s.data.d.length := (List.getElem?_eq_some_iff.1 hj).1
  have h0 : 0 < s'.data.d.length := by rw [h.only]; simp
  obtain ⟨A, c, o, V⟩ := fit_view hl.usualVsf hs hok rfl
  obtain ⟨A', c', o', V'⟩ := fit_view hl.usualVsf hs' hok' h.nRep
  have key : ∀ k, (o' 0 h0 k).forget = (o j hj' k).forget := fun k => by
    refine h.out hsp.cols hl.startFree hj (V.cell j hj' k).1 (V'.cell 0 h0 k).1 ?_ (V.cell j hj' k).2 (V'.cell 0 h0 k).2
    have e1 := V.want j hj' k
    have e2 := V'.want 0 h0 k
    rw [e1] at e2
    exact (PyVal.bool.inj e2).symm
  have hf : ∀ k, (o' 0 h0 k).fit = (o j hj' k).fit := fun k => (forget_fields (key k)).1
  have hse : ∀ k, (o' 0 h0 k).sens = (o j hj' k).sens := fun k => (forget_fields (key k)).2.2.2.2
  have hcv : s'.data.cv = s.data.cv := h.cv
  have hblk : A'.blocks = [cellBlock (vsfOf (sp.vars.map fun v => v s.data.cv)) fun k => (o j hj' k).fit] := by
    have e1 := V'.nBlocks
    rw [h.only] at e1
    obtain ⟨b, hb⟩ := List.length_eq_one_iff.1 e1
    have e2 := V'.block 0 h0
    rw [hb] at e2
    have e3 := Option.some.inj e2
    rw [hb]
    rw [e3, hcv]
    simp only [hf]
  refine ⟨fun k hk => ?_, ?_, ?_, A, A', V.fw, V'.fw, V.nBlocks, ⟨_, hblk, V.block j hj'⟩, fun hsens => ?_⟩
  · obtain ⟨p, m, _, hc, _⟩ := fit_ok hok
    obtain ⟨hp, hm⟩ := checkFit_ok hc
    obtain ⟨c1, o1, l1, x1, x2, x3, x4, x5, x6, x7, x8, x9, x10⟩ := fit_cells hok hp hm hj' hk
    obtain ⟨c2, o2, l2, y1, y2, y3, y4, y5, y6, y7, y8, y9, y10⟩ := fit_cells hok' hp hm h0 (h.nRep.symm ▸ hk)
    obtain ⟨z1, z2, z3, z4, -⟩ := forget_fields (h.out hsp.cols hl.startFree hj x1 y1 (y2.trans x2.symm) x3 y3)
    rw [z1] at y5 y6 y7
    rw [z2, z3] at y4 y9
    rw [z4] at y10
    have hloss : l1 = l2 := Except.ok.inj (x4.symm.trans y4)
    refine ⟨x5.trans y5.symm, x6.trans y6.symm, x7.trans y7.symm, ?_, fun hp' => ?_, fun hm' => ?_⟩
    · rw [hloss] at x8
      exact x8.trans y8.symm
    · rw [hp] at hp'
      have := PyVal.bool.inj hp'
      exact (x9 this).trans (y9 this).symm
    · rw [hm] at hm'
      have := PyVal.bool.inj hm'
      exact (x10 this).trans (y10 this).symm
  · rw [show t.coef j = _ from V.coef j hj', show t'.coef 0 = _ from V'.coef 0 h0]
    simp only [hf]
  · rw [show t.se j = _ from V.se j hj', show t'.se 0 = _ from V'.se 0 h0, hcv]
    simp only [hf]
  · obtain ⟨S, B, e1, e2, e3, e4, e5⟩ := V.sens hsens
    obtain ⟨S', B', g1, g2, g3, g4, g5⟩ := V'.sens hsens
    refine ⟨S, S', B, B', e1, g1, e2, g2, ?_, ?_, by rw [g3, h.only]; rfl⟩
    · rw [(e5 j hj').1, (g5 0 h0).1]
      simp only [hse]
    · rw [(e5 j hj').2, (g5 0 h0).2]
      simp only [hse]

end DML
