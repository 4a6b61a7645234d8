import Verif.ModelProps
import Verif.Multi

/-!
# The framework after a fit, in terms of the cells

What a successful `fit` leaves behind, written with the results of the cells: stored arrays, aggregated estimates and the
framework object.  Used to compare two fits.
-/

namespace DML

open Finset

variable {n r : ℕ} {P M : Type}

/-- The scaling factor of the variance: the number of observations, of clusters, or the smaller number of clusters
(/repo/doubleml/utils/_estimation.py:264,289,317). -/
noncomputable def vsfOf : Option (ClusterVars n) → ℝ
  | none => n
  | some (.one c) => nUnique c
  | some (.two c d) => (min (nUnique c) (nUnique d) : ℕ)

theorem varEst_vsf (psi deriv : Fin n → ℝ) (cr : Option (ClusterRep n)) :
    (varEst psi deriv cr).2 = vsfOf (cr.map ClusterRep.vars) := by
  rcases cr with _ | ⟨_ | _, sm, smc, K⟩ <;> rfl

/-- The class uses the scaling factor of `_var_est`. -/
def UsualVsf (sp : Spec n P M) : Prop := ∀ c o, sp.est c = .ok o → o.fit.vsf = vsfOf (c.cluster.map ClusterRep.vars)

/-- The parameter of the framework made of the results of all repetitions
(/repo/doubleml/double_ml.py:527-560, /repo/doubleml/utils/_estimation.py:242-256). -/
noncomputable def cellBlock (v : ℝ) (f : Fin r → FitOne n) : Block n r :=
  { theta := aggTheta fun k => (f k).coef
    se := aggSe (fun k => (f k).coef) (fun k => (f k).se) fun _ => v
    allTheta := fun k => (f k).coef
    allSe := fun k => (f k).se
    vsf := v
    psi := fun i k => (f k).scaledPsi i }

/-- The sensitivity elements of the framework made of those of all repetitions (/repo/doubleml/double_ml.py:562-583). -/
noncomputable def cellSens (S : Fin r → SensElems n) : Sens n r :=
  ⟨fun k => (validateSens S k).maxBias, fun i k => (validateSens S k).psiMaxBias i⟩

/-- The benchmark elements of the framework made of the sensitivity elements of all repetitions. -/
noncomputable def cellBench (S : Fin r → SensElems n) : Bench r :=
  ⟨fun k => (validateSens S k).sigma2, fun k => (validateSens S k).nu2⟩

/-- What a successful fit leaves behind: one cell per treatment `j` and repetition `k`, and a framework made of them. -/
structure FitView (F : Frame n) (sp : Spec n P M) (s : MState n P M) (a : FitArgs) (r : ℕ) (A : FW n r)
    (c : ∀ j, j < s.data.d.length → Fin r → CellIn n P) (o : ∀ j, j < s.data.d.length → Fin r → CellOut n M) : Prop where
  fw : (fit F sp s a).1.fw? = some ⟨r, A⟩
  cell : ∀ j hj (k : Fin r), CellFrom F sp s a.ext k j (c j hj k) ∧ sp.est (c j hj k) = .ok (o j hj k)
  want : ∀ j hj (k : Fin r), a.storeModels = .bool (c j hj k).wantModels
  coefs : ∀ j hj (k : Fin r), ((fit F sp s a).1.heap (fit F sp s a).1.arr).coef j k = some (o j hj k).fit.coef
  ses : ∀ j hj (k : Fin r), ((fit F sp s a).1.heap (fit F sp s a).1.arr).se j k = some (o j hj k).fit.se
  coef : ∀ j hj, (fit F sp s a).1.coef j = some (aggTheta fun k => (o j hj k).fit.coef)
  se : ∀ j hj, (fit F sp s a).1.se j = some (aggSe (fun k => (o j hj k).fit.coef) (fun k => (o j hj k).fit.se)
    fun _ => vsfOf (sp.vars.map fun v => v s.data.cv))
  nBlocks : A.blocks.length = s.data.d.length
  block : ∀ j hj, A.blocks[j]? =
    some (cellBlock (vsfOf (sp.vars.map fun v => v s.data.cv)) fun k => (o j hj k).fit)
  cluster : A.cluster = sp.vars.map fun v k =>
    ⟨v s.data.cv, ((s.smpls.getD []).getD k []), ((s.smplsCluster.getD []).getD k []), s.nFoldsPer⟩
  names : A.names = some s.data.d
  noSens : sp.sensImpl = false → A.sens = none ∧ A.bench = none
  sens : sp.sensImpl = true → ∃ S B, A.sens = some S ∧ A.bench = some B ∧ S.length = s.data.d.length ∧
    B.length = s.data.d.length ∧ ∀ j hj, S[j]? = some (cellSens fun k => (o j hj k).sens) ∧
      B[j]? = some (cellBench fun k => (o j hj k).sens)

theorem fit_view {F : Frame n} {sp : Spec n P M} (hv : UsualVsf sp) {s : MState n P M} (hs : Shaped s) {a : FitArgs}
    (h : (fit F sp s a).2 = .ok ()) (hr : s.nRep = r) : ∃ A c o, FitView F sp s a r A c o := by
  obtain ⟨p, m, fw, hc, hl, hcon, heq⟩ := fit_ok h
  have hf := (initFit_frame sp s p m).trans
    (fitLoop_frame F sp a.ext p m (cellOrder s.nRep s.data.d.length) (initFit sp s p m))
  have hT := fitLoop_tables (F := F) (ext := a.ext) (p := p) (m := m) (cellOrder s.nRep s.data.d.length)
    (initFit_tables sp s p m) hl
  have hcells : ∀ j, j < s.data.d.length → ∀ k : Fin r, ∃ (c : CellIn n P) (o : CellOut n M),
      (CellFrom F sp s a.ext k j c ∧ c.wantModels = m) ∧ sp.est c = .ok o ∧
      Stored sp p m (fitLoop F sp a.ext p m (initFit sp s p m) (cellOrder s.nRep s.data.d.length)).1 k j o := by
    intro j hj k
    obtain ⟨o, ho, hst, _⟩ := fitLoop_stored _ _ hl (mem_cellOrder.2 ⟨by rw [hr]; exact k.2, hj⟩)
    obtain ⟨c, hc, hw, hce⟩ := (ho.congr (initFit_frame sp s p m).settings.symm).from
    exact ⟨c, o, ⟨hc, hw⟩, hce, hst⟩
  have hvsf : ∀ j < s.data.d.length, ((fitLoop F sp a.ext p m (initFit sp s p m) (cellOrder s.nRep s.data.d.length)).1.heap
      (fitLoop F sp a.ext p m (initFit sp s p m) (cellOrder s.nRep s.data.d.length)).1.arr).vsf j =
        some (vsfOf (sp.vars.map fun v => v s.data.cv)) := by
    intro j hj
    obtain ⟨L1, L2, hL, hL2⟩ := cellOrder_split (r := s.nRep) (t := s.data.d.length) (j := j) hs.pos hj
    rw [hL] at hl ⊢
    obtain ⟨o, ho, hvo⟩ := fitLoop_vsf L1 L2 _ hL2 hl
    obtain ⟨c, hc, _, hce⟩ := (ho.congr (initFit_frame sp s p m).settings.symm).from
    rw [hvo, hv c o hce]
    congr 2
    cases hvars : sp.vars with
    | none => rw [hc.noCluster hvars]; rfl
    | some v =>
      obtain ⟨l, q, _, _, h3⟩ := hc.cluster v hvars
      rw [h3]; rfl
  choose c o H using hcells
  have hnT : ∀ t : MState n P M, FitFrame s t → (t.heap t.arr).nT = s.data.d.length := fun t ht => by
    rw [ht.settings.nT, hs.nT]
  have hnr : (s.heap s.arr).nR = r := by rw [hs.nR, hr]
  have H' : ∀ j hj (k : Fin r), Stored sp p m (fitLoop F sp a.ext p m (initFit sp s p m) (cellOrder s.nRep s.data.d.length)).1 k j (o j hj k) :=
    fun j hj k => (H j hj k).2.2
  have hfw : (fit F sp s a).1.framework = some ⟨(s.heap s.arr).nR, s.arr, { fw := fw }⟩ := by rw [heq]
  have hheap : (fit F sp s a).1.heap = (fitLoop F sp a.ext p m (initFit sp s p m) (cellOrder s.nRep s.data.d.length)).1.heap := by
    rw [heq]; rfl
  have harr : (fit F sp s a).1.arr = (fitLoop F sp a.ext p m (initFit sp s p m) (cellOrder s.nRep s.data.d.length)).1.arr := by
    rw [heq]; rfl
  have hco : (fit F sp s a).1.coef = aggCoef ((fit F sp s a).1.heap (fit F sp s a).1.arr) := by rw [heq]; rfl
  have hse : (fit F sp s a).1.se = aggSes ((fit F sp s a).1.heap (fit F sp s a).1.arr) := by rw [heq]; rfl
  rw [hheap, harr] at hco hse
  generalize (fitLoop F sp a.ext p m (initFit sp s p m) (cellOrder s.nRep s.data.d.length)).1 = t at *
  have hTn := hnT t hf
  have hRn : (t.heap t.arr).nR = r := by rw [hf.settings.nR, hnr]
  have hd : t.data.d = s.data.d := hf.settings.data.d
  have hcoef : ∀ j (hj : j < s.data.d.length), aggCoef (t.heap t.arr) j = some (aggTheta fun k => (o j hj k).fit.coef) := by
    intro j hj
    have hval : ∀ k : Fin r, (t.heap t.arr).coef j k = some (o j hj k).fit.coef := fun k => (H' j hj k).coef
    generalize t.heap t.arr = B at *
    obtain ⟨nt, nr, cf, se, v⟩ := B
    simp only at hRn hTn hval
    subst hRn
    unfold aggCoef
    rw [if_pos ⟨by rw [hTn]; exact hj, fun k hk => by simp [hval ⟨k, hk⟩]⟩]
    congr 2
    funext k
    simp [rowOf, hval]
  have hses : ∀ j (hj : j < s.data.d.length), aggSes (t.heap t.arr) j = some (aggSe (fun k => (o j hj k).fit.coef)
      (fun k => (o j hj k).fit.se) fun _ => vsfOf (sp.vars.map fun v => v s.data.cv)) := by
    intro j hj
    have hval : ∀ k : Fin r, (t.heap t.arr).coef j k = some (o j hj k).fit.coef := fun k => (H' j hj k).coef
    have hval' : ∀ k : Fin r, (t.heap t.arr).se j k = some (o j hj k).fit.se := fun k => (H' j hj k).se
    have hvj := hvsf j hj
    generalize t.heap t.arr = B at *
    obtain ⟨nt, nr, cf, se, v⟩ := B
    simp only at hRn hTn hval hval' hvj
    subst hRn
    unfold aggSes
    rw [if_pos ⟨by rw [hTn]; exact hj, fun k hk => by simp [hval ⟨k, hk⟩, hval' ⟨k, hk⟩]⟩]
    simp only [hvj, Option.getD_some]
    congr 2
    · funext k; simp [rowOf, hval]
    · funext k; simp [rowOf, hval']
  generalize (s.heap s.arr).nR = q at *
  subst hnr
  obtain ⟨rfl, hsh, hbn, _⟩ := FW.construct_ok hcon
  refine ⟨{ (frameworkOf q sp (aggregate sp t)).normBench with
      blocks := (frameworkOf q sp (aggregate sp t)).normBench.blocks.zipIdx.map fun bj =>
        { bj.1 with
          allTheta := fun k => ((t.heap s.arr).coef bj.2 k).getD 0
          allSe := fun k => ((t.heap s.arr).se bj.2 k).getD 0
          vsf := ((t.heap s.arr).vsf bj.2).getD 0 } }, c, o, ?_⟩
  have hlen : (frameworkOf q sp (aggregate sp t)).normBench.blocks.length = s.data.d.length := by
    show ((List.range (t.heap t.arr).nT).map _).length = _
    rw [List.length_map, List.length_range, hTn]
  refine ⟨?_, fun j hj k => ⟨(H j hj k).1.1, (H j hj k).2.1⟩, fun j hj k => by rw [(H j hj k).1.2]; exact (checkFit_ok hc).2,
    fun j hj k => ?_, fun j hj k => ?_, fun j hj => ?_, fun j hj => ?_, ?_, fun j hj => ?_, ?_, ?_, fun h0 => ?_, fun h1 => ?_⟩
  · unfold MState.fw?
    rw [hfw, hheap]
    rfl
  · rw [hheap, harr]; exact (H' j hj k).coef
  · rw [hheap, harr]; exact (H' j hj k).se
  · rw [hco]; exact hcoef j hj
  · rw [hse]; exact hses j hj
  · simp only [List.length_map, List.length_zipIdx]; exact hlen
  · simp only [List.getElem?_map, List.getElem?_zipIdx]
    have hb : (frameworkOf q sp (aggregate sp t)).normBench.blocks[j]? = some (blockOf q (aggregate sp t) j) := by
      show ((List.range (t.heap t.arr).nT).map _)[j]? = _
      rw [hTn, List.getElem?_map, List.getElem?_range hj]
      rfl
    rw [hb, ← hf.arr]
    simp only [Option.map_some, zero_add]
    unfold cellBlock blockOf
    simp only [hvsf j hj, Option.getD_some]
    show some (Block.mk ((aggCoef (t.heap t.arr) j).getD 0) ((aggSes (t.heap t.arr) j).getD 0) _ _ _ _) = _
    rw [hcoef j hj, hses j hj]
    simp only [Option.getD_some]
    congr 2
    · funext k; rw [(H' j hj k).coef]; rfl
    · funext k; rw [(H' j hj k).se]; rfl
    · funext i k
      show ((t.scores j k).map _).getD 0 = _
      rw [(H' j hj k).scores]; rfl
  · show (sp.vars.map fun v (k : Fin q) => (⟨v t.data.cv, (t.smpls.getD []).getD k [], (t.smplsCluster.getD []).getD k [],
      t.nFoldsPer⟩ : ClusterRep n)) = _
    rw [hf.settings.smpls, hf.settings.smplsCluster, hf.settings.nFoldsPer, hf.settings.data.roles]
  · show some t.data.d = _
    rw [hd]
  · have hsn : (frameworkOf q sp (aggregate sp t)).sens = none := by
      show (if sp.sensImpl = true then _ else none) = none
      rw [if_neg (by rw [h0]; decide)]
    refine ⟨hsn, ?_⟩
    unfold FW.normBench
    dsimp only
    rw [hsn]; rfl
  · obtain ⟨S, hS⟩ := Option.isSome_iff_exists.1 (hT.sens h1)
    have hag : (aggregate sp t).sens = some (validAt S t.nRep) := by
      show (if sp.sensImpl = true then t.sens.map fun S => validAt S t.nRep else t.sens) = _
      rw [if_pos h1, hS]; rfl
    have hnq : t.nRep = q := by rw [hf.settings.nRep, hr]
    have hsens : (frameworkOf q sp (aggregate sp t)).sens =
        some ((List.range t.data.d.length).map fun j => (sensBlock (validAt S t.nRep) q j).1) := by
      show (if sp.sensImpl = true then (aggregate sp t).sens.map _ else none) = _
      rw [if_pos h1, hag]; rfl
    have hbench : (frameworkOf q sp (aggregate sp t)).normBench.bench =
        some ((List.range t.data.d.length).map fun j => (sensBlock (validAt S t.nRep) q j).2) := by
      unfold FW.normBench
      dsimp only
      rw [if_pos (by rw [hsens]; rfl)]
      show (if sp.sensImpl = true then (aggregate sp t).sens.map _ else none) = _
      rw [if_pos h1, hag]; rfl
    refine ⟨_, _, hsens, hbench, by simp [hd], by simp [hd], fun j hj => ?_⟩
    have hval : ∀ k : Fin q, validAt S t.nRep j k = some (validateSens (fun k => (o j hj k).sens) k) := by
      intro k
      subst hnq
      unfold validAt
      rw [dif_pos k.2]
      congr 2
      funext i
      rw [(H' j hj i).sens h1 S hS]
      rfl
    simp only [List.getElem?_map, hd, List.getElem?_range hj, Option.map_some]
    unfold sensBlock cellSens cellBench
    simp only [hval, Option.getD_some, and_self]

end DML
