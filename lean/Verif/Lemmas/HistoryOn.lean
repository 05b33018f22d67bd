import Verif.Props.History
/-! Histories of a calculator that adjusts its configuration to the structure in each evaluation, with configuration calls that do not click the ticker. -/
set_option linter.unusedSectionVars false
namespace Verif.History
open Verif.Eval Verif.Diff

variable {C S B G : Type} [AddCommGroup G]

theorem eval_cfg (K : Calc C S B G) (st : St C S G) (stru : S) :
    ∃ c0, (evalSt K st stru).cfg = (K.custom stru c0).1 := by
  have hopt : ∃ c0, (optFinal K stru st).cfg = (K.custom stru c0).1 := by
    unfold optFinal
    cases fastChoice K st stru with
    | none => exact ⟨st.cfg, basicFinal_cfg K st.cpuindex st.ncpu stru st⟩
    | some p =>
      obtain ⟨s0, d⟩ := p
      dsimp only
      split
      · exact ⟨_, basicFinal_cfg K st.cpuindex st.ncpu stru (midFast K s0 stru d (setUsed .optimized st))⟩
      · refine ⟨st.cfg, ?_⟩
        show (midFast K s0 stru d (setUsed .optimized st)).cfg = _
        rw [midFast_cfg]
        rfl
  rw [evalSt_eq]
  cases st.evtype with
  | none => exact ⟨_, basicFinal_cfg _ _ _ _ _⟩
  | basic => exact ⟨_, basicFinal_cfg _ _ _ _ _⟩
  | optimized => exact hopt
  | check =>
    dsimp only
    unfold checkFinal
    dsimp only
    split
    · exact hopt
    · exact ⟨_, basicFinal_cfg K st.cpuindex st.ncpu stru (doSave (optFinal K stru st))⟩

open Classical in
/-- Whether the stored value may be out of step with the last evaluated structure or the configuration, when it was `t` before the call: set by
`setStructure` when the next evaluation may be a fast update then, and by a configuration call that changes something without a click (`Q` are the
changes that do not matter) when the next evaluation may be a fast update; cleared by a configuration call that clicks the ticker, a change of evaluator, and an evaluation that reports BASIC as the
evaluator used. -/
noncomputable def taintOn (K : Calc C S B G) (Q : C → C → Prop) (st : St C S G) (t : Bool) : Op C S → Bool
  | .eval stru => t && decide ((evalSt K st stru).used ≠ .basic)
  | .setStructure stru => decide (Primed (setStru K stru st))
  | .configure f clicks => !clicks && (t || decide (Primed st ∧ ¬ Q st.cfg (f st.cfg)))
  | op => taint K st t op

/-- Changes of the configuration that do not matter for the value. -/
structure QuietOn (K : Calc C S B G) (P : C → Prop) (Q : C → C → Prop) : Prop where
  keep : ∀ c c', Q c c' → P c → P c'
  value : ∀ c c', Q c c' → P c → ∀ s, basicValue K c' s = basicValue K c s

theorem inv_on_eval (K : Calc C S B G) (P : C → Prop) (hK : LawfulOn K P) (Q : C → C → Prop) (n : Nat) (hn : 1 ≤ n)
    (s : Nat → St C S G) (t : Bool) (h : InvOn K P n s t) (stru : S) :
    InvOn K P n (fun k => step K (s k) (.eval stru)) (taintOn K Q (s 0) t (.eval stru)) := by
  have hbk : ∀ k, k < n → Bnd (s k) := fun k hk => bnd_ctl _ _ (h.sync k hk) h.bnd
  refine ⟨⟨fun k hk => ctl_evalSt K stru _ _ (h.sync k hk), ?_, ?_, (eval_keeps K _ stru h.bnd).1, ?_⟩, ?_⟩
  · intro k hk
    exact ((eval_keeps K _ stru (hbk k hk)).2.2.1).trans (h.idx k hk)
  · exact ((eval_keeps K _ stru h.bnd).2.2.2).trans h.ncpu
  · intro ht
    have hful : (evalSt K (s 0) stru).used = .basic ∨ t = false := by
      simp only [taintOn, Bool.and_eq_false_iff, decide_eq_false_iff_not, not_not] at ht
      exact ht.symm
    obtain ⟨c1, c2, c3⟩ := eval_core_on K P hK n hn s t h stru hful
    simp only [step]
    by_cases hev : (s 0).evtype = .optimized ∨ (s 0).evtype = .check
    · right; right
      rw [c2]
      exact ⟨c3 hev, c1⟩
    · right; left
      have := (eval_keeps K _ stru h.bnd)
      apply this.1.last
      · rw [this.2.1]; exact fun hh => hev (Or.inl hh)
      · rw [this.2.1]; exact fun hh => hev (Or.inr hh)
  · intro _
    right; right
    obtain ⟨c0, hc⟩ := eval_cfg K (s 0) stru
    show P (evalSt K (s 0) stru).cfg
    rw [hc]
    exact hK.keep _ _

theorem inv_on_configure (K : Calc C S B G) (P : C → Prop) (Q : C → C → Prop) (hQ : QuietOn K P Q) (n : Nat) (hn : 1 ≤ n)
    (s : Nat → St C S G) (t : Bool) (h : InvOn K P n s t) (f : C → C) (clicks : Bool) :
    InvOn K P n (fun k => step K (s k) (.configure f clicks)) (taintOn K Q (s 0) t (.configure f clicks)) := by
  cases clicks with
  | true =>
    have := inv_other K n hn s t h.toInv (.configure f true) (fun h => by cases h) (by simp)
    have e : taintOn K Q (s 0) t (.configure f true) = taint K (s 0) t (.configure f true) := by simp [taintOn, taint]
    rw [e]
    refine ⟨this, fun _ => Or.inl ?_⟩
    show (s 0).clock + 1 ≥ (s 0).valTick
    have := h.bnd.val
    omega
  | false =>
    have hb := h.bnd
    refine ⟨⟨fun k hk => ?_, fun k hk => h.idx k hk, h.ncpu, ⟨hb.pq, hb.val, hb.last⟩, fun ht => ?_⟩, fun ht => ?_⟩
    · have := h.sync k hk
      rw [ctl_iff] at this ⊢
      obtain ⟨h1, h2, h3, h4, h5, h6, h7, h8, h9⟩ := this
      refine ⟨h1, h2, h3, h4, h5, ?_, h7, h8, h9⟩
      show f (s k).cfg = f (s 0).cfg
      rw [h6]
    · simp only [taintOn, Bool.not_false, Bool.true_and, Bool.or_eq_false_iff, decide_eq_false_iff_not, not_and, not_not] at ht
      obtain ⟨h1, h2⟩ := ht
      rcases h.good h1 with hg | hg | ⟨hg1, hg2⟩
      · exact Or.inl hg
      · exact Or.inr (Or.inl hg)
      rcases h.ord h1 with ho | ho | ho
      · exact Or.inl ho
      · exact Or.inr (Or.inl ho)
      by_cases hev : (s 0).pqTick ≥ (s 0).valTick
      · exact Or.inl hev
      · right; right
        refine ⟨hg1, hg2.trans ?_⟩
        have hpr : Primed (s 0) := ⟨by rw [hg1]; simp, not_le.1 hev⟩
        exact (hQ.value _ _ (h2 hpr) ho _).symm
    · simp only [taintOn, Bool.not_false, Bool.true_and, Bool.or_eq_false_iff, decide_eq_false_iff_not, not_and, not_not] at ht
      obtain ⟨h1, h2⟩ := ht
      rcases h.ord h1 with ho | ho | ho
      · exact Or.inl ho
      · exact Or.inr (Or.inl ho)
      by_cases hpr : Primed (s 0)
      · exact Or.inr (Or.inr (hQ.keep _ _ (h2 hpr) ho))
      · by_cases hl : (s 0).last = none
        · exact Or.inr (Or.inl hl)
        · exact Or.inl (not_lt.1 fun hh => hpr ⟨hl, hh⟩)

theorem inv_on_setStructure (K : Calc C S B G) (P : C → Prop) (Q : C → C → Prop) (n : Nat) (hn : 1 ≤ n)
    (s : Nat → St C S G) (t : Bool) (h : InvOn K P n s t) (stru : S) :
    InvOn K P n (fun k => step K (s k) (.setStructure stru)) (taintOn K Q (s 0) t (.setStructure stru)) := by
  have hi := inv_other K n hn s t h.toInv (.setStructure stru) trivial (by simp)
  have key : taintOn K Q (s 0) t (.setStructure stru) = false → (setStru K stru (s 0)).pqTick ≥ (setStru K stru (s 0)).valTick ∨
      (setStru K stru (s 0)).last = none := by
    intro ht
    simp only [taintOn, decide_eq_false_iff_not] at ht
    exact unprimed ht
  refine ⟨⟨hi.sync, hi.idx, hi.ncpu, hi.bnd, fun ht => ?_⟩, fun ht => ?_⟩
  · rcases key ht with h | h
    · exact Or.inl h
    · exact Or.inr (Or.inl h)
  · rcases key ht with h | h
    · exact Or.inl h
    · exact Or.inr (Or.inl h)

theorem setType_cases (K : Calc C S B G) (ty : EvType) (st : St C S G) :
    (setTypeSt K ty st = st) ∨ ((setTypeSt K ty st).evtype ≠ st.evtype ∧ (setTypeSt K ty st).last = none) := by
  unfold setTypeSt
  split
  · exact Or.inl rfl
  · rename_i h1
    split
    · exact Or.inl rfl
    · split
      · exact Or.inl rfl
      · exact Or.inr ⟨fun h => h1 h.symm, rfl⟩

theorem inv_on_setType (K : Calc C S B G) (P : C → Prop) (Q : C → C → Prop) (n : Nat) (hn : 1 ≤ n)
    (s : Nat → St C S G) (t : Bool) (h : InvOn K P n s t) (ty : EvType) :
    InvOn K P n (fun k => step K (s k) (.setType ty)) (taintOn K Q (s 0) t (.setType ty)) := by
  have := inv_other K n hn s t h.toInv (.setType ty) trivial (by simp)
  refine ⟨this, fun ht => ?_⟩
  show (setTypeSt K ty (s 0)).pqTick ≥ (setTypeSt K ty (s 0)).valTick ∨ (setTypeSt K ty (s 0)).last = none ∨ P (setTypeSt K ty (s 0)).cfg
  rcases setType_cases K ty (s 0) with e | ⟨-, e⟩
  · rw [e]
    have ht' : (t && decide ((setTypeSt K ty (s 0)).evtype = (s 0).evtype)) = false := ht
    rw [e, decide_eq_true rfl, Bool.and_true] at ht'
    exact h.ord ht'
  · exact Or.inr (Or.inl e)

/-- An unclicked change of the configuration of a calculator without a stored structure. -/
theorem inv_on_reset (K : Calc C S B G) (P : C → Prop) (n : Nat)
    (s : Nat → St C S G) (h : InvOn K P n s false) (hl : (s 0).last = none) (c : C) :
    InvOn K P n (fun k => step K (s k) (.configure (fun _ => c) false)) false := by
  have hb := h.bnd
  refine ⟨⟨fun k hk => ?_, fun k hk => h.idx k hk, h.ncpu, ⟨hb.pq, hb.val, hb.last⟩, fun _ => Or.inr (Or.inl hl)⟩, fun _ => Or.inr (Or.inl hl)⟩
  have := h.sync k hk
  rw [ctl_iff] at this ⊢
  obtain ⟨h1, h2, h3, h4, h5, h6, h7, h8, h9⟩ := this
  exact ⟨h1, h2, h3, h4, h5, rfl, h7, h8, h9⟩

end Verif.History
