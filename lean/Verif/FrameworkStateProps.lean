import Verif.FrameworkState
import Verif.SensitivityProps
import Verif.RomanoWolfProps

/-!
# Histories of calls on a result object (C06, C14, C16)
-/

namespace DML

open Finset

variable {n r : ℕ}

/-! ## Specification -/

/-- The arguments of a `bootstrap` call that the documentation allows: one of the three methods and a
positive number of replications, on a result without clustering. -/
def ValidBoot (A : FW n r) (method nRep : PyVal) (m : String) (B : ℕ) : Prop :=
  A.cluster = none ∧ method = .str m ∧ (m = "Bayes" ∨ m = "normal" ∨ m = "wild") ∧ 1 ≤ B ∧
    (nRep = .int B ∨ (nRep = .bool true ∧ B = 1))

/-- Call `o` is an admissible bootstrap call and `bt` its draws, studentised parameter by parameter. -/
def BootCall (A : FW n r) (o : Op n r) (bt : Boot r) : Prop :=
  ∃ method nRep W m B, o = .bootstrap method nRep W ∧ ValidBoot A method nRep m B ∧
    bt = ⟨B, m, A.blocks.map fun b => b.bootT (W B)⟩

/-- `x` belongs to the last call of the history related to anything by `P`. -/
def LastOf {α : Type} (P : Op n r → α → Prop) (ops : List (Op n r)) (x : α) : Prop :=
  ∃ pre o suf, ops = pre ++ o :: suf ∧ P o x ∧ ∀ o' ∈ suf, ∀ y, ¬ P o' y

/-! ## Lemmas -/

theorem bootstrap_ok_iff (A : FW n r) (method nRep : PyVal) (W : ∀ B : ℕ, Fin r → Fin B → Fin n → ℝ)
    (bt : Boot r) : A.bootstrap method nRep W = .ok bt ↔ BootCall A (.bootstrap method nRep W) bt := by
  have hc : ∀ m B, checkBootstrap method nRep = .ok (m, B) ↔
      method = .str m ∧ (m = "Bayes" ∨ m = "normal" ∨ m = "wild") ∧ 1 ≤ B ∧
        (nRep = .int B ∨ (nRep = .bool true ∧ B = 1)) := by
    intro m B
    unfold checkBootstrap
    cases method with
    | str m' =>
      simp only [List.mem_cons, List.not_mem_nil, or_false]
      by_cases hm : m' = "Bayes" ∨ m' = "normal" ∨ m' = "wild"
      · rw [if_pos hm]
        cases nRep with
        | int z =>
          simp only [PyVal.asInt]
          by_cases hz : z < 1
          · rw [if_pos hz]
            simp only [reduceCtorEq, PyVal.str.injEq, PyVal.int.injEq, false_and, or_false, false_iff]
            rintro ⟨_, _, h1, h2⟩; omega
          · rw [if_neg hz]
            simp only [Except.ok.injEq, Prod.mk.injEq, PyVal.str.injEq, PyVal.int.injEq, reduceCtorEq,
              false_and, or_false]
            constructor
            · rintro ⟨rfl, rfl⟩; exact ⟨rfl, hm, by omega, by omega⟩
            · rintro ⟨rfl, _, _, h⟩; exact ⟨rfl, by omega⟩
        | bool b =>
          cases b
          · simp [PyVal.asInt]
          · simp only [PyVal.asInt, if_true, Except.ok.injEq, Prod.mk.injEq, PyVal.str.injEq,
              reduceCtorEq, false_or, true_and, lt_self_iff_false, if_false]
            constructor
            · rintro ⟨rfl, rfl⟩; exact ⟨rfl, hm, by decide, rfl⟩
            · rintro ⟨rfl, _, _, rfl⟩; exact ⟨rfl, rfl⟩
        | _ => simp [PyVal.asInt]
      · rw [if_neg hm]
        simp only [reduceCtorEq, PyVal.str.injEq, false_iff]
        rintro ⟨rfl, h, _⟩; exact hm h
    | _ => simp
  unfold FW.bootstrap
  cases hcb : checkBootstrap method nRep with
  | error e =>
    simp only [bind, Except.bind, reduceCtorEq, false_iff]
    rintro ⟨m1, k1, W1, m, B, h1, ⟨_, h2, h3, h4, h5⟩, _⟩
    simp only [Op.bootstrap.injEq] at h1
    obtain ⟨rfl, rfl, rfl⟩ := h1
    rw [(hc m B).2 ⟨h2, h3, h4, h5⟩] at hcb
    cases hcb
  | ok mb =>
    obtain ⟨m, B⟩ := mb
    simp only [bind, Except.bind, pure, Except.pure]
    by_cases hcl : A.cluster.isSome
    · rw [if_pos hcl]
      simp only [reduceCtorEq, false_iff]
      rintro ⟨m1, k1, W1, m, B, h1, ⟨h2, _⟩, _⟩
      simp [h2] at hcl
    · rw [if_neg hcl]
      simp only [Except.ok.injEq]
      have hv := (hc m B).1 hcb
      constructor
      · rintro rfl
        exact ⟨method, nRep, W, m, B, rfl, ⟨by simpa using hcl, hv⟩, rfl⟩
      · rintro ⟨m1, k1, W1, m', B', h1, ⟨_, h2⟩, rfl⟩
        simp only [Op.bootstrap.injEq] at h1
        obtain ⟨rfl, rfl, rfl⟩ := h1
        have := (hc m' B').2 h2
        rw [hcb] at this
        simp only [Except.ok.injEq, Prod.mk.injEq] at this
        obtain ⟨rfl, rfl⟩ := this
        rfl

theorem step_fw (E : Ext) (s : RState n r) (o : Op n r) : (s.step E o).1.fw = s.fw := by
  cases o with
  | bootstrap m k W => simp only [RState.step]; split <;> rfl
  | sensitivity y d p l h => simp only [RState.step]; split <;> rfl
  | _ => rfl

theorem run_fw (E : Ext) (s : RState n r) (ops : List (Op n r)) : (s.run E ops).fw = s.fw := by
  induction ops generalizing s with
  | nil => rfl
  | cons o os ih => rw [RState.run, ih, step_fw]

/-- A component that accepted calls overwrite and all other calls leave alone holds the result of the
last accepted call. -/
theorem last_component {α : Type} (E : Ext) (A : FW n r) (c : RState n r → Option α)
    (P : Op n r → α → Prop)
    (h1 : ∀ (s : RState n r) o x, s.fw = A → P o x → c (s.step E o).1 = some x)
    (h2 : ∀ (s : RState n r) o, s.fw = A → (∀ x, ¬ P o x) → c (s.step E o).1 = c s)
    (s : RState n r) (hs : s.fw = A) (ops : List (Op n r)) (x : α) :
    c (s.run E ops) = some x ↔ LastOf P ops x ∨ (c s = some x ∧ ∀ o ∈ ops, ∀ y, ¬ P o y) := by
  classical
  induction ops generalizing s with
  | nil =>
    simp only [RState.run, List.not_mem_nil, false_imp_iff, implies_true, and_true]
    constructor
    · exact Or.inr
    · rintro (⟨pre, o, suf, h, _⟩ | h)
      · simp at h
      · exact h
  | cons o os ih =>
    rw [RState.run, ih _ (by rw [step_fw, hs])]
    constructor
    · rintro (⟨pre, o', suf, rfl, h⟩ | ⟨hc, hn⟩)
      · exact Or.inl ⟨o :: pre, o', suf, rfl, h⟩
      · by_cases hP : ∃ y, P o y
        · obtain ⟨y, hy⟩ := hP
          rw [h1 s o y hs hy] at hc
          simp only [Option.some.injEq] at hc
          exact Or.inl ⟨[], o, os, rfl, hc ▸ hy, hn⟩
        · have hP' : ∀ y, ¬ P o y := fun y hy => hP ⟨y, hy⟩
          rw [h2 s o hs hP'] at hc
          refine Or.inr ⟨hc, ?_⟩
          intro o' ho'
          rcases List.mem_cons.1 ho' with rfl | ho'
          · exact hP'
          · exact hn o' ho'
    · rintro (⟨pre, o', suf, h, hx, hn⟩ | ⟨hc, hn⟩)
      · cases pre with
        | nil =>
          simp only [List.nil_append, List.cons.injEq] at h
          obtain ⟨rfl, rfl⟩ := h
          exact Or.inr ⟨h1 s o x hs hx, hn⟩
        | cons a pre =>
          simp only [List.cons_append, List.cons.injEq] at h
          exact Or.inl ⟨pre, o', suf, h.2, hx, hn⟩
      · refine Or.inr ⟨?_, fun o' ho' => hn o' (List.mem_cons_of_mem _ ho')⟩
        rw [h2 s o hs (hn o (by simp))]; exact hc

theorem seqFin_ok_iff {α : Type} {r : ℕ} (f : Fin r → Except Exc α) (g : Fin r → α) :
    seqFin f = .ok g ↔ ∀ i, f i = .ok (g i) := by
  induction r with
  | zero =>
    simp only [seqFin, Except.ok.injEq, IsEmpty.forall_iff, iff_true]
    funext i; exact i.elim0
  | succ r ih =>
    simp only [seqFin, bind, Except.bind, pure, Except.pure]
    constructor
    · intro h
      cases h0 : f 0 with
      | error e => rw [h0] at h; simp at h
      | ok a =>
        rw [h0] at h
        simp only at h
        cases h1 : seqFin fun i => f i.succ with
        | error e => rw [h1] at h; simp at h
        | ok t =>
          rw [h1] at h
          simp only [Except.ok.injEq] at h
          subst h
          intro i
          refine Fin.cases ?_ (fun i => ?_) i
          · rw [h0, Fin.cons_zero]
          · rw [Fin.cons_succ]; exact (ih _ t).1 h1 i
    · intro h
      have h1 : (seqFin fun i => f i.succ) = .ok fun i => g i.succ := (ih _ _).2 fun i => h i.succ
      rw [h 0, h1]
      simp only [Except.ok.injEq]
      funext i
      refine Fin.cases ?_ (fun i => ?_) i <;> simp

/-! ## C06 -/

/-- **C06.** A call that raises leaves the object exactly as it was. -/
theorem C06_failed_call_no_effect (E : Ext) (s : RState n r) (o : Op n r) (e : Exc)
    (h : (s.step E o).2 = .error e) : (s.step E o).1 = s := by
  cases o with
  | bootstrap m k W => simp only [RState.step] at h ⊢; split at h <;> simp_all
  | sensitivity y d p l nl => simp only [RState.step] at h ⊢; split at h <;> simp_all
  | _ => rfl

/-- **C06.** Estimates, standard errors and scores never change, and queries (`confint`, `p_adjust`,
`sensitivity_plot`) change nothing at all. -/
theorem C06_queries_pure (E : Ext) (s : RState n r) :
    (∀ ops, (s.run E ops).fw = s.fw) ∧ (∀ j l, (s.step E (.confint j l)).1 = s) ∧
    (∀ m, (s.step E (.pAdjust m)).1 = s) ∧ ∀ a, (s.step E (.plot a)).1 = s :=
  ⟨fun ops => run_fw E s ops, fun _ _ => rfl, fun _ => rfl, fun _ => rfl⟩

/-- **C06.** After any history on a fresh object, the stored bootstrap is that of the last admissible
`bootstrap` call (and there is none if there was no such call). -/
theorem C06_stored_bootstrap (E : Ext) (A : FW n r) (ops : List (Op n r)) (bt : Boot r) :
    (RState.run E { fw := A } ops).boot = some bt ↔ LastOf (BootCall A) ops bt := by
  rw [last_component E A RState.boot (BootCall A) ?_ ?_ _ rfl]
  · simp
  · rintro s o x rfl hP
    obtain ⟨method, nRep, W, m, B, rfl, hv⟩ := id hP
    simp only [RState.step]
    rw [(bootstrap_ok_iff _ _ _ _ _).2 hP]
  · rintro s o rfl hP
    cases o with
    | bootstrap m k W =>
      simp only [RState.step]
      split
      · rename_i b hb
        exact absurd ((bootstrap_ok_iff _ _ _ _ _).1 hb) (hP b)
      · rfl
    | sensitivity y d p l h => simp only [RState.step]; split <;> rfl
    | _ => rfl

/-- **C06.** Joint confidence intervals at a valid level are served iff some earlier bootstrap call was
admissible, and they are computed from the draws of the latest one. -/
theorem C06_joint_confint (E : Ext) (A : FW n r) (ops : List (Op n r)) {l : ℝ} (h0 : 0 < l) (h1 : l < 1) :
    ((∃ out, ((RState.run E { fw := A } ops).step E (.confint (.bool true) (.float l))).2 = .ok out) ↔
      ∃ bt, LastOf (BootCall A) ops bt) ∧
    ∀ bt, LastOf (BootCall A) ops bt →
      ((RState.run E { fw := A } ops).step E (.confint (.bool true) (.float l))).2 =
        .ok (.cis (A.blocks.map fun b => b.ci (jointCrit bt l))) := by
  have hl : ¬ (l ≤ 0 ∨ l ≥ 1) := by push Not; exact ⟨h0, h1⟩
  have hval : ∀ bt, LastOf (BootCall A) ops bt →
      ((RState.run E { fw := A } ops).step E (.confint (.bool true) (.float l))).2 =
        .ok (.cis (A.blocks.map fun b => b.ci (jointCrit bt l))) := by
    intro bt hbt
    have hb := (C06_stored_bootstrap E A ops bt).2 hbt
    simp only [RState.step, FW.confint, hb, run_fw, if_neg hl, if_true, Except.map]
  refine ⟨⟨?_, fun ⟨bt, h⟩ => ⟨_, hval bt h⟩⟩, hval⟩
  rintro ⟨out, ho⟩
  cases hb : (RState.run E { fw := A } ops).boot with
  | some bt => exact ⟨bt, (C06_stored_bootstrap E A ops bt).1 hb⟩
  | none => simp [RState.step, FW.confint, hb, Except.map] at ho

/-- **C06.** The method names of Romano–Wolf in any case of letters. -/
theorem C06_method_names (m : String) (h : m.toLower ∈ ["rw", "romano-wolf"]) (E : Ext) (A : FW n r) (boot : Option (Boot r)) :
    A.pAdjust E boot (.str m) = A.pAdjust E boot (.str "romano-wolf") := by
  have h1 : isRW m = true := by
    unfold isRW
    rcases List.mem_pair.1 h with h | h <;> rw [h] <;> simp
  have h2 : isRW "romano-wolf" = true := by
    have : "romano-wolf".toLower = "romano-wolf" := by
      rw [← String.toList_inj]
      simp [String.toLower]
    unfold isRW
    rw [this]
    simp
  unfold FW.pAdjust
  simp only [FW.pAdjustRep, h1, h2, if_true]

example : "RW".toLower ∈ ["rw", "romano-wolf"] ∧ "Romano-Wolf".toLower ∈ ["rw", "romano-wolf"] := by
  have h1 : "RW".toLower = "rw" := by
    rw [← String.toList_inj]
    simp [String.toLower]
  have h2 : "Romano-Wolf".toLower = "romano-wolf" := by
    rw [← String.toList_inj]
    simp [String.toLower]
  rw [h1, h2]
  simp

/-- **C06.** Romano–Wolf p-values are served iff some earlier bootstrap call was admissible; they are
then the medians over repetitions of the step-down p-values (C11) of the latest draws. -/
theorem C06_romano_wolf (E : Ext) (A : FW n r) (hr : 0 < r) (ops : List (Op n r)) {m : String}
    (hm : isRW m = true) :
    ((∃ out, ((RState.run E { fw := A } ops).step E (.pAdjust (.str m))).2 = .ok out) ↔
      ∃ bt, LastOf (BootCall A) ops bt) ∧
    ∀ bt, LastOf (BootCall A) ops bt → ∃ q : Fin r → Fin A.blocks.length → ℝ,
      (∀ k i, IsStepDownP (A.tStats k) (bt.stats _ k) i (q k i)) ∧
      ((RState.run E { fw := A } ops).step E (.pAdjust (.str m))).2 =
        .ok (.pvals (A.blocks.map Block.theta) (List.ofFn fun i => median fun k => q k i)) := by
  have hfw := run_fw E (RState.mk A none none) ops
  have hval : ∀ bt, LastOf (BootCall A) ops bt → ∃ q : Fin r → Fin A.blocks.length → ℝ,
      (∀ k i, IsStepDownP (A.tStats k) (bt.stats _ k) i (q k i)) ∧
      ((RState.run E { fw := A } ops).step E (.pAdjust (.str m))).2 =
        .ok (.pvals (A.blocks.map Block.theta) (List.ofFn fun i => median fun k => q k i)) := by
    intro bt hbt
    have hb := (C06_stored_bootstrap E A ops bt).2 hbt
    refine ⟨fun k => romanoWolf (A.tStats k) (bt.stats _ k) (E.argsortDesc fun i => |A.tStats k i|)
      (E.argsortIdx (E.argsortDesc fun i => |A.tStats k i|)), fun k i => ?_, ?_⟩
    · exact C11_romano_wolf_is_stepdown _ _ _ _ (E.argsortDesc_spec _) (E.argsortIdx_spec _) i
    · generalize hst : RState.run E { fw := A } ops = st at hb hfw
      obtain ⟨fw, boot, sens⟩ := st
      simp only at hb hfw
      subst hb; subst hfw
      have hseq : (seqFin fun k => fw.pAdjustRep E (some bt) m k) = .ok fun k =>
          romanoWolf (fw.tStats k) (bt.stats _ k) (E.argsortDesc fun i => |fw.tStats k i|)
            (E.argsortIdx (E.argsortDesc fun i => |fw.tStats k i|)) := by
        rw [seqFin_ok_iff]; intro k
        simp only [FW.pAdjustRep, hm, if_true]
      simp only [RState.step, FW.pAdjust, hseq, bind, Except.bind, pure, Except.pure, Except.map]
  refine ⟨⟨?_, fun ⟨bt, h⟩ => let ⟨_, _, h⟩ := hval bt h; ⟨_, h⟩⟩, hval⟩
  rintro ⟨out, ho⟩
  cases hb : (RState.run E { fw := A } ops).boot with
  | some bt => exact ⟨bt, (C06_stored_bootstrap E A ops bt).1 hb⟩
  | none =>
    exfalso
    generalize RState.run E { fw := A } ops = st at hb ho
    simp only [RState.step, FW.pAdjust, hb] at ho
    cases hs : seqFin fun k => st.fw.pAdjustRep E none m k with
    | error e => rw [hs] at ho; simp [bind, Except.bind, Except.map] at ho
    | ok g =>
      have := (seqFin_ok_iff _ _).1 hs ⟨0, hr⟩
      simp [FW.pAdjustRep, hm] at this

/-- Non-vacuity of C06: a history with a rejected and two accepted bootstrap calls. -/
example (A : FW 2 1) (hA : A.cluster = none) (W W' : ∀ B : ℕ, Fin 1 → Fin B → Fin 2 → ℝ) :
    LastOf (BootCall A)
      [.bootstrap (.str "normal") (.int 500) W, .bootstrap (.str "wild") (.int 7) W',
       .bootstrap (.str "wild") (.int 0) W, .confint (.bool true) (.float 0.9)]
      ⟨7, "wild", A.blocks.map fun b => b.bootT (W' 7)⟩ := by
  refine ⟨[.bootstrap (.str "normal") (.int 500) W], _, _, rfl, ?_, ?_⟩
  · exact ⟨_, _, W', "wild", 7, rfl, ⟨hA, rfl, by simp, by norm_num, Or.inl rfl⟩, rfl⟩
  · intro o ho y
    simp only [List.mem_cons, List.not_mem_nil, or_false] at ho
    rcases ho with rfl | rfl
    · rintro ⟨_, _, _, m, B, h, ⟨_, _, _, hB, hk⟩, _⟩
      simp only [Op.bootstrap.injEq] at h
      obtain ⟨_, rfl, _⟩ := h
      rcases hk with h | ⟨h, _⟩
      · simp only [PyVal.int.injEq] at h; omega
      · simp at h
    · rintro ⟨_, _, _, m, B, h, _⟩
      simp at h

/-! ## C14 -/

/-- The documented argument ranges of `sensitivity_analysis`. -/
def ValidSens (A : FW n r) (cfy cfd rho level null : PyVal) : Prop :=
  A.sens.isSome ∧ (∃ y, cfy = .float y ∧ 0 ≤ y ∧ y < 1) ∧ (∃ d, cfd = .float d ∧ 0 ≤ d ∧ d < 1) ∧
  (∃ p, rho = .float p ∧ -1 ≤ p ∧ p ≤ 1) ∧ (∃ l, level = .float l ∧ 0 < l ∧ l < 1) ∧
  ((∃ x, null = .float x) ∨ (∃ a : List ℝ, null = .arr a ∧ a.length = A.blocks.length) ∨
    (∃ a : List ℤ, null = .iarr a ∧ a.length = 0 ∧ A.blocks.length = 0))

theorem sensArgs_ok_iff (cfy cfd rho level : PyVal) (y d p l : ℝ) :
    sensArgs cfy cfd rho level = .ok (y, d, p, l) ↔
      (cfy = .float y ∧ 0 ≤ y ∧ y < 1) ∧ (cfd = .float d ∧ 0 ≤ d ∧ d < 1) ∧
      (rho = .float p ∧ -1 ≤ p ∧ p ≤ 1) ∧ (level = .float l ∧ 0 < l ∧ l < 1) := by
  unfold sensArgs
  constructor
  · intro h
    obtain ⟨y', h1, h⟩ := bind_ok h
    obtain ⟨d', h2, h⟩ := bind_ok h
    obtain ⟨p', h3, h⟩ := bind_ok h
    obtain ⟨q', h4, h⟩ := bind_ok h
    obtain ⟨l', h5, h⟩ := bind_ok h
    simp only [pure, Except.pure, Except.ok.injEq, Prod.mk.injEq] at h
    obtain ⟨rfl, rfl, rfl, rfl⟩ := h
    rw [checkInZeroOne_ok_iff] at h1 h2 h4 h5
    have hr : rho = .float p' := by
      cases rho <;> simp_all [checkFloat]
    subst hr
    simp only [PyVal.abs, PyVal.float.injEq, if_true, Bool.false_eq_true, if_false] at h1 h2 h4 h5
    obtain ⟨rfl, _, h4⟩ := h4
    exact ⟨h1, h2, ⟨rfl, by linarith [(abs_le.1 h4).1], (abs_le.1 h4).2⟩, h5⟩
  · rintro ⟨⟨rfl, hy⟩, ⟨rfl, hd⟩, ⟨rfl, hp⟩, rfl, hl⟩
    have e1 : checkInZeroOne (.float y) true false = .ok y := (checkInZeroOne_ok_iff ..).2 ⟨rfl, by simpa using hy⟩
    have e2 : checkInZeroOne (.float d) true false = .ok d := (checkInZeroOne_ok_iff ..).2 ⟨rfl, by simpa using hd⟩
    have e3 : checkInZeroOne (PyVal.abs (.float p)) true true = .ok |p| :=
      (checkInZeroOne_ok_iff ..).2 ⟨rfl, by simpa [abs_le] using hp⟩
    have e4 : checkInZeroOne (.float l) false false = .ok l := (checkInZeroOne_ok_iff ..).2 ⟨rfl, by simpa using hl⟩
    rw [e1, e2, e3, e4]
    rfl

/-- **C14.** `sensitivity_analysis` accepts exactly the documented arguments. -/
theorem C14_accepts_iff (E : Ext) (A : FW n r) (cfy cfd rho level null : PyVal) :
    (∃ q, A.sensitivityAnalysis E cfy cfd rho level null = .ok q) ↔ ValidSens A cfy cfd rho level null := by
  unfold FW.sensitivityAnalysis
  constructor
  · rintro ⟨q, h⟩
    obtain ⟨nv, h1, h⟩ := bind_ok h
    obtain ⟨res, h2, h⟩ := bind_ok h
    obtain ⟨nulls, h3, h⟩ := bind_ok h
    obtain ⟨⟨y, d, p, l⟩, h4, h⟩ := bind_ok h
    have hs : A.sens.isSome := by
      unfold FW.calcSens at h2
      cases hA : A.sens with
      | none => rw [hA] at h2; simp at h2
      | some ss => rfl
    obtain ⟨g1, g2, g3, g4⟩ := (sensArgs_ok_iff ..).1 h4
    refine ⟨hs, ⟨y, g1⟩, ⟨d, g2⟩, ⟨p, g3⟩, ⟨l, g4⟩, ?_⟩
    cases null with
    | float x => exact Or.inl ⟨x, rfl⟩
    | arr a =>
      simp only [nullVec] at h1
      by_cases ha : a.length = A.blocks.length
      · exact Or.inr (Or.inl ⟨a, rfl, ha⟩)
      · simp [if_neg ha] at h1
    | iarr a =>
      simp only [nullVec] at h1
      by_cases ha : a.length = A.blocks.length
      · rw [if_pos ha] at h1
        simp only [Except.ok.injEq] at h1
        subst h1
        cases a with
        | nil => exact Or.inr (Or.inr ⟨[], rfl, rfl, ha.symm⟩)
        | cons z a =>
          simp only [List.map_cons, List.mapM_cons] at h3
          obtain ⟨_, h5, _⟩ := bind_ok h3
          simp [checkFloat] at h5
      · simp [if_neg ha] at h1
    | _ => simp [nullVec] at h1
  · rintro ⟨hs, ⟨y, hy⟩, ⟨d, hd⟩, ⟨p, hp⟩, ⟨l, hl⟩, hn⟩
    have h4 := (sensArgs_ok_iff cfy cfd rho level y d p l).2 ⟨hy, hd, hp, hl⟩
    obtain ⟨ss, hss⟩ := Option.isSome_iff_exists.1 hs
    have h2 : ∃ res, A.calcSens cfy cfd rho level = .ok res := by
      unfold FW.calcSens; rw [hss]; simp only; rw [h4]; exact ⟨_, rfl⟩
    obtain ⟨res, h2⟩ := h2
    have h13 : ∃ nv nulls, nullVec A.blocks.length null = .ok nv ∧ nv.mapM checkFloat = .ok nulls := by
      rcases hn with ⟨x, rfl⟩ | ⟨a, rfl, ha⟩ | ⟨a, rfl, ha, hb⟩
      · refine ⟨_, _, rfl, mapM_ok checkFloat (fun _ => x) _ ?_⟩
        intro v hv; rw [List.eq_of_mem_replicate hv]; rfl
      · refine ⟨a.map .float, a, by simp [nullVec, ha], ?_⟩
        have := mapM_ok checkFloat (fun v => match v with | .float x => x | _ => 0) (a.map .float) (by
          intro v hv; obtain ⟨x, _, rfl⟩ := List.mem_map.1 hv; rfl)
        rw [this, List.map_map]
        congr 1
        conv_rhs => rw [← List.map_id a]
        rfl
      · rw [List.length_eq_zero_iff] at ha
        subst ha
        exact ⟨[], [], by simp [nullVec, hb], rfl⟩
    obtain ⟨nv, nulls, h1, h3⟩ := h13
    rw [h1, h2]
    simp only [bind, Except.bind]
    rw [h3, h4]
    exact ⟨_, rfl⟩

/-- Call `o` is an admissible sensitivity call on a result `A` with result `q`. -/
def SensCall (E : Ext) (A : FW n r) (o : Op n r) (q : SensParams) : Prop :=
  ∃ y d p l h, o = .sensitivity y d p l h ∧ ValidSens A y d p l h ∧
    A.sensitivityAnalysis E y d p l h = .ok q

/-- **C14.** After any history the stored sensitivity results are those of the last admissible call;
rejected calls never overwrite them. -/
theorem C14_stored_params (E : Ext) (A : FW n r) (ops : List (Op n r)) (q : SensParams) :
    (RState.run E { fw := A } ops).sens = some q ↔ LastOf (SensCall E A) ops q := by
  rw [last_component E A RState.sens (SensCall E A) ?_ ?_ _ rfl]
  · simp
  · rintro s o x rfl ⟨y, d, p, l, h, rfl, _, hq⟩
    simp only [RState.step]; rw [hq]
  · rintro s o rfl hP
    cases o with
    | sensitivity y d p l h =>
      simp only [RState.step]
      split
      · rename_i q hq
        exact absurd ⟨y, d, p, l, h, rfl, (C14_accepts_iff E s.fw ..).1 ⟨q, hq⟩, hq⟩ (hP q)
      · rfl
    | bootstrap m k W => simp only [RState.step]; split <;> rfl
    | _ => rfl

theorem mapM_checkFloat (l : List ℝ) : (l.map PyVal.float).mapM checkFloat = .ok l := by
  rw [mapM_ok_iff]
  induction l with
  | nil => exact .nil
  | cons a l ih => exact .cons rfl ih

/-- **C14.** What an accepted call stores: exactly the passed scenario and null hypotheses, the bounds of
every parameter for that scenario, and as robustness values the minimisers of the objective of that
parameter, its sensitivity elements and its null hypothesis (estimate and confidence limit separately). -/
theorem C14_stored_values (E : Ext) (A : FW n r) (cfy cfd rho level null : PyVal) (q : SensParams)
    (h : A.sensitivityAnalysis E cfy cfd rho level null = .ok q) :
    cfy = .float q.cfy ∧ cfd = .float q.cfd ∧ rho = .float q.rho ∧ level = .float q.level ∧
    (∀ x, null = .float x → q.null = List.replicate A.blocks.length x) ∧
    (∀ a : List ℝ, null = .arr a → q.null = a) ∧
    ∃ ss, A.sens = some ss ∧
      q.res = List.zipWith (fun b s => b.sensRes s A.cluster q.cfy q.cfd q.rho q.level) A.blocks ss ∧
      q.rv = List.zipWith (fun (bs : Block n r × Sens n r) h =>
        E.minimize (rvObjective bs.1 bs.2 A.cluster h q.rho q.level false)) (A.blocks.zip ss) q.null ∧
      q.rva = List.zipWith (fun (bs : Block n r × Sens n r) h =>
        E.minimize (rvObjective bs.1 bs.2 A.cluster h q.rho q.level true)) (A.blocks.zip ss) q.null := by
  unfold FW.sensitivityAnalysis at h
  obtain ⟨nv, h1, h⟩ := bind_ok h
  obtain ⟨res, h2, h⟩ := bind_ok h
  obtain ⟨nulls, h3, h⟩ := bind_ok h
  obtain ⟨⟨y, d, p, l⟩, h4, h⟩ := bind_ok h
  obtain ⟨⟨ey, _⟩, ⟨ed, _⟩, ⟨ep, _⟩, el, _⟩ := (sensArgs_ok_iff cfy cfd rho level y d p l).1 h4
  have hq := Except.ok.inj h
  subst hq
  refine ⟨ey, ed, ep, el, ?_, ?_, ?_⟩
  · rintro x rfl
    simp only [nullVec] at h1
    rw [← Except.ok.inj h1, ← List.map_replicate, mapM_checkFloat] at h3
    exact (Except.ok.inj h3).symm
  · rintro a rfl
    simp only [nullVec] at h1
    split_ifs at h1
    rw [← Except.ok.inj h1, mapM_checkFloat] at h3
    exact (Except.ok.inj h3).symm
  · unfold FW.calcSens at h2
    cases hA : A.sens with
    | none => rw [hA] at h2; cases h2
    | some ss =>
      rw [hA] at h2
      simp only [h4, bind, Except.bind] at h2
      refine ⟨ss, rfl, (Except.ok.inj h2).symm, ?_, ?_⟩
      · simp
      · simp

/-- Non-vacuity of C14: the default arguments are admissible. -/
example (A : FW 2 1) (hA : A.sens.isSome) :
    ValidSens A (.float 0.03) (.float 0.03) (.float 1) (.float 0.95) (.float 0) :=
  ⟨hA, ⟨_, rfl, by norm_num, by norm_num⟩, ⟨_, rfl, by norm_num, by norm_num⟩,
    ⟨_, rfl, by norm_num, by norm_num⟩, ⟨_, rfl, by norm_num, by norm_num⟩, Or.inl ⟨_, rfl⟩⟩

/-! ## C16 -/

/-- **C16 violated.** The figure does not depend on the `null_hypothesis` argument at all. -/
theorem C16_violated_null_ignored (A : FW n r) (sens : Option SensParams) (a : PlotArgs) (h h' : ℝ) :
    A.sensitivityPlot sens { a with null := .float h } =
      A.sensitivityPlot sens { a with null := .float h' } := rfl

/-- **C16 violated.** Without a previous `sensitivity_analysis` the plot always raises, also with
`include_scenario=False`. -/
theorem C16_violated_no_params (A : FW n r) (a : PlotArgs) : ∃ e, A.sensitivityPlot none a = .error e := by
  unfold FW.sensitivityPlot
  cases h : plotChecks A.blocks.length (Option.isNone (none : Option SensParams)) a with
  | error e => exact ⟨e, by simp [bind, Except.bind]⟩
  | ok v => exact ⟨.typeError, by simp [bind, Except.bind]⟩

theorem calcSens_ok (A : FW n r) {ss : List (Sens n r)} (hs : A.sens = some ss) {y d p l : ℝ}
    (hy : 0 ≤ y ∧ y < 1) (hd : 0 ≤ d ∧ d < 1) (hp : -1 ≤ p ∧ p ≤ 1) (hl : 0 < l ∧ l < 1) :
    A.calcSens (.float y) (.float d) (.float p) (.float l) =
      .ok (List.zipWith (fun b s => b.sensRes s A.cluster y d p l) A.blocks ss) := by
  unfold FW.calcSens
  rw [hs]
  simp only
  rw [(sensArgs_ok_iff _ _ _ _ y d p l).2 ⟨⟨rfl, hy⟩, ⟨rfl, hd⟩, ⟨rfl, hp⟩, ⟨rfl, hl⟩⟩]
  rfl

theorem mem_linspace {b : ℝ} {g : ℕ} (hb : 0 < b) (hb1 : b < 1) (hg : 2 ≤ g) {x : ℝ} (h : x ∈ linspace b g) :
    0 ≤ x ∧ x < 1 := by
  obtain ⟨i, hi, rfl⟩ := List.mem_map.1 h
  rw [List.mem_range] at hi
  have hg' : (0 : ℝ) < (g : ℝ) - 1 := by
    have : (2 : ℝ) ≤ g := by exact_mod_cast hg
    linarith
  have hi' : (i : ℝ) ≤ g - 1 := by
    have : (i : ℝ) + 1 ≤ g := by exact_mod_cast hi
    linarith
  refine ⟨by positivity, ?_⟩
  rw [div_lt_one hg']
  nlinarith

/-- **C16 (what holds).** The plotted contour values are the bounds on the side selected by the *stored*
null hypothesis, evaluated on the requested grid with the requested `rho` and `level`. -/
theorem C16_contour_partial (A : FW n r) (sp : SensParams) (a : PlotArgs) {ss : List (Sens n r)}
    (hs : A.sens = some ss) {idx g : ℕ} {ci : Bool} {b0 b1 p l : ℝ} {b : Block n r} {s : Sens n r}
    (hb : A.blocks[idx]? = some b) (hsi : ss[idx]? = some s)
    (hchk : plotChecks A.blocks.length false a = .ok (idx, ci, b0, b1, g))
    (hb0 : 0 < b0 ∧ b0 < 1) (hb1 : 0 < b1 ∧ b1 < 1) (hg : 10 ≤ g)
    (hrho : a.rho = .float p) (hp : -1 ≤ p ∧ p ≤ 1) (hlev : a.level = .float l) (hl : 0 < l ∧ l < 1) :
    ∃ d, A.sensitivityPlot (some sp) a = .ok d ∧
      d.contour = (linspace b0 g).map fun x => (linspace b1 g).map fun y =>
        (b.sensRes s A.cluster y x p l).get ci (useUpper (sp.null.getD idx 0) b.theta) := by
  unfold FW.sensitivityPlot
  rw [Option.isNone_some, hchk]
  simp only [bind, Except.bind, pure, Except.pure, hb, hrho, hlev]
  have inner : ∀ x ∈ linspace b0 g, ((linspace b1 g).mapM fun y =>
      A.contourCell idx ci (useUpper (sp.null.getD idx 0) b.theta) (.float p) (.float l) x y) =
      .ok ((linspace b1 g).map fun y =>
        (b.sensRes s A.cluster y x p l).get ci (useUpper (sp.null.getD idx 0) b.theta)) := by
    intro x hx
    refine mapM_ok _ _ _ fun y hy => ?_
    unfold FW.contourCell
    rw [calcSens_ok A hs (mem_linspace hb1.1 hb1.2 (by omega) hy) (mem_linspace hb0.1 hb0.2 (by omega) hx)
      hp hl]
    simp [bind, Except.bind, pure, Except.pure, pickRes, List.getElem?_zipWith, hb, hsi]
  rw [mapM_ok _ _ _ inner]
  exact ⟨_, rfl, rfl⟩

/-- Default plotting arguments for parameter `0` with grid size 10. -/
noncomputable def examplePlot (null : ℝ) : PlotArgs where
  idx := .int 0
  value := .str "theta"
  rho := .float 1
  level := .float 0.95
  null := .float null
  includeScenario := .bool true
  fill := .bool true
  bound0 := .float 0.15
  bound1 := .float 0.15
  size := .int 10

theorem examplePlot_checks (null : ℝ) :
    plotChecks 1 false (examplePlot null) = .ok (0, false, 0.15, 0.15, 10) := by
  have e : checkInZeroOne (.float 0.15) false false = .ok 0.15 :=
    (checkInZeroOne_ok_iff ..).2 ⟨rfl, by norm_num⟩
  have e1 : checkInteger (.int 0) (some 0) (some (((1 : ℕ) : ℤ) - 1)) = .ok 0 := by
    simp [checkInteger, PyVal.asInt]
  have e2 : checkInteger (.int 10) (some 10) none = .ok 10 := by
    simp [checkInteger, PyVal.asInt]
  simp only [plotChecks, examplePlot, e, e1, e2, checkBool, checkFloat, bind, Except.bind, pure, Except.pure]
  simp

/-- **C16 violated (concrete).** Estimate `3`, stored null hypothesis `0`, caller's null hypothesis
`10 > 3`: the caller needs the upper bound, but every plotted contour value is at most the estimate. -/
theorem C16_violated_wrong_side : ∃ (A : FW 2 1) (sp : SensParams) (b : Block 2 1) (d : PlotData),
    A.blocks = [b] ∧ b.theta = 3 ∧ useUpper 10 b.theta = true ∧
    A.sensitivityPlot (some sp) (examplePlot 10) = .ok d ∧ d.contour ≠ [] ∧
    ∀ row ∈ d.contour, ∀ v ∈ row, v ≤ b.theta := by
  let b : Block 2 1 := (Influence.mk (fun _ => 3) (fun j _ => if j = 0 then 2 else -1)).direct 2
  let s : Sens 2 1 := ⟨fun _ => 1, fun _ _ => 0⟩
  let A : FW 2 1 := { blocks := [b], sens := some [s] }
  have hθ : b.theta = 3 := median_one _
  let sp : SensParams := ⟨[], [], [], 0, 0, 1, 0.95, [0]⟩
  obtain ⟨d, hd, hc⟩ := C16_contour_partial A sp (examplePlot 10) (ss := [s]) rfl (idx := 0) (g := 10)
    (ci := false) (b0 := 0.15) (b1 := 0.15) (p := 1) (l := 0.95) (b := b) (s := s) rfl rfl
    (examplePlot_checks 10) (by norm_num) (by norm_num) le_rfl rfl (by norm_num) rfl (by norm_num)
  refine ⟨A, sp, b, d, rfl, hθ, by rw [hθ]; simp [useUpper]; norm_num, hd, ?_, ?_⟩
  · rw [hc]; simp [linspace, List.range_succ]
  · rw [hc]
    intro row hrow v hv
    obtain ⟨x, _, rfl⟩ := List.mem_map.1 hrow
    obtain ⟨y, _, rfl⟩ := List.mem_map.1 hv
    have : useUpper (sp.null.getD 0 0) b.theta = false := by
      rw [hθ]; simp [useUpper, sp]
    rw [this]
    exact (C13_bracket b s A.cluster rfl (fun _ => zero_le_one) y x 1 0.95).1

/-- **C16 violated (`value="ci"`).** The "unadjusted" value drawn in a confidence contour plot is the
two-sided level-`l` limit of `confint`, while the contour at zero confounding is the one-sided level-`l`
limit: the two never agree when the standard error is positive. -/
theorem C16_violated_ci_origin (b : Block n 1) (s : Sens n 1) (hb : b.Consistent) (hv : b.vsf = n)
    (hse : 0 < b.allSe 0) (p : ℝ) {l : ℝ} (h0 : 0 < l) (h1 : l < 1) :
    (b.ci fun _ => pointCrit l).1 < (b.sensRes s none 0 0 p l).get true false ∧
    (b.sensRes s none 0 0 p l).get true true < (b.ci fun _ => pointCrit l).2 := by
  obtain ⟨_, h2, h3⟩ := C13_collapse_se b s hb hv (y := 0) (d := 0) (p := p) (Or.inl rfl) l
  have hq : ppf l < pointCrit l :=
    ppf_strictMonoOn ⟨h0, h1⟩ ⟨by linarith, by linarith⟩ (by linarith)
  have := mul_lt_mul_of_pos_left hq hse
  simp only [SensRes.get]
  rw [h2, h3, C07_single_repetition, C07_single_repetition]
  constructor <;> simp only <;> linarith

end DML
