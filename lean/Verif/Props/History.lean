import Verif.Lemmas.History
import Verif.Props.Diff
set_option linter.unusedSectionVars false
/-!
Properties of calculators over a history of calls: C12 (OPTIMIZED and BASIC agree) and C13 (failed
evaluations).  The main theorem covers every history in which a public `setStructure` or a failed
evaluation of a fast evaluator is followed by a configuration change that clicks the ticker (or a
change of evaluator) before the next `eval`; the negative theorems show that these conditions are
needed.
-/
namespace Verif.History
open Verif.Eval Verif.Diff

variable {C S B G : Type} [AddCommGroup G]

/-! ## Specification -/

/-- The value a fresh BASIC serial evaluation gives for configuration `c` and structure `stru`:
the sum of contributions over the pair loops, see C08 for its closed form. -/
def basicValue (K : Calc C S B G) (c : C) (stru : S) : G :=
  traceSum (K.con c stru) (basicTrace true (K.gen c stru) K.fullSum (K.use c stru)
    (K.count stru) 0 1)

/-- What a calculator class must meet: `fast` is the fast-update property C11 for the structures in
use, `custom` says that the structure's own configuration hook clicks the ticker when it changes the
configuration, `close` that the comparison of the CHECK evaluator accepts equal results. -/
structure Lawful (K : Calc C S B G) : Prop where
  fast : ∀ c s0 s1, (K.diff s0 s1).allowsFast = true →
    ((K.fixedIdx || K.hasPairMask c) = true → (K.diff s0 s1).method = .sideBySide) →
    basicValue K c s0
      + traceSum (K.con c s0) (fastTrace (K.gen c s0) (K.gen c s1) K.fullSum (K.use c s0)
          (K.use c s1) (K.count s0) (K.count s1) (K.diff s0 s1).pop0 (K.diff s0 s1).add1 0 1).1
      + traceSum (K.con c s1) (fastTrace (K.gen c s0) (K.gen c s1) K.fullSum (K.use c s0)
          (K.use c s1) (K.count s0) (K.count s1) (K.diff s0 s1).pop0 (K.diff s0 s1).add1 0 1).2
      = basicValue K c s1
  custom : ∀ s c, (K.custom s c).2 = false → (K.custom s c).1 = c
  close : ∀ v, K.close v v = true

/-- Calls covered by the theorem: configuration calls click the ticker unless they change nothing
that the value depends on; in a run of several jobs no job fails; the CPU assignment is fixed. -/
def Allowed (n : Nat) : Op C S → Prop
  | .configure f clicks => clicks = false → ∀ c, f c = c
  | .evalFail _ _ => n = 1
  | .setupParallel _ _ => False
  | _ => True

/-- The next evaluation may be a fast update: there is a last evaluated structure, and no click of the ticker since the last evaluation. -/
def Primed (st : St C S G) : Prop := st.last ≠ none ∧ st.pqTick < st.valTick

instance (st : St C S G) : Decidable (Primed st) :=
  decidable_of_iff (st.last.isSome = true ∧ st.pqTick < st.valTick) (by unfold Primed; cases st.last <;> simp)

/-- Whether the calculator's stored value may be out of step with its last evaluated structure, when it was `t` before the call:
set by `setStructure` and by a failed evaluation after which the next evaluation may be a fast update, cleared by a configuration
change that clicks the ticker, by a change of evaluator and by an evaluation that reports BASIC as the evaluator used. -/
def taint (K : Calc C S B G) (st : St C S G) (t : Bool) : Op C S → Bool
  | .eval stru => t && decide ((evalSt K st stru).used ≠ .basic)
  | .evalFail stru j => decide (Primed (step K st (.evalFail stru j)))
  | .setStructure stru => decide (Primed (setStru K stru st))
  | .configure _ clicks => t && !clicks
  | .setType ty => t && decide ((setTypeSt K ty st).evtype = st.evtype)
  | .setupParallel _ _ => true

/-- `taint` after a history. -/
def taintAfter (K : Calc C S B G) : St C S G → Bool → List (Op C S) → Bool
  | _, t, [] => t
  | st, t, op :: ops => taintAfter K (step K st op) (taint K st t op) ops

/-! ## Proof -/

theorem bval_sum (K : Calc C S B G) (c : C) (stru : S) (n : Nat) (hn : 1 ≤ n) :
    ∑ k ∈ Finset.range n, bval K c stru (k : Int) (n : Int) = basicValue K c stru := by
  unfold bval basicValue
  rw [parallel_merge_value _ _ _ _ _ _ n hn, basicTrace_serial, basicTrace_serial]

theorem basicFinal_value (K : Calc C S B G) (cpu ncpu : Int) (stru : S) (st : St C S G) :
    (basicFinal K cpu ncpu stru st).value = bval K (K.custom stru st.cfg).1 stru cpu ncpu := rfl

theorem basicFinal_cfg (K : Calc C S B G) (cpu ncpu : Int) (stru : S) (st : St C S G) :
    (basicFinal K cpu ncpu stru st).cfg = (K.custom stru st.cfg).1 := by
  change (setStru K stru (setUsed .basic st)).cfg = _
  rw [setStru_cfg]; rfl

theorem basicFinal_cur (K : Calc C S B G) (cpu ncpu : Int) (stru : S) (st : St C S G) :
    (basicFinal K cpu ncpu stru st).cur = stru := setStru_cur _ _ _

/-- Invariant of the jobs `s 0, ..., s (n-1)`. -/
structure Inv (K : Calc C S B G) (n : Nat) (s : Nat → St C S G) (t : Bool) : Prop where
  sync : ∀ k, k < n → ctl (s k) = ctl (s 0)
  idx : ∀ k, k < n → (s k).cpuindex = (k : Int)
  ncpu : (s 0).ncpu = (n : Int)
  bnd : Bnd (s 0)
  good : t = false → (s 0).pqTick ≥ (s 0).valTick ∨ (s 0).last = none ∨
    ((s 0).last = some (s 0).cur ∧
      ∑ k ∈ Finset.range n, (s k).value = basicValue K (s 0).cfg (s 0).cur)

theorem Inv.fields {K : Calc C S B G} {n : Nat} {s : Nat → St C S G} {t : Bool} (h : Inv K n s t)
    (k : Nat) (hk : k < n) : (s k).ncpu = (n : Int) ∧ (s k).cfg = (s 0).cfg ∧ (s k).cur = (s 0).cur ∧
      (s k).evtype = (s 0).evtype ∧ (s k).last = (s 0).last ∧ (s k).pqTick = (s 0).pqTick ∧
      (s k).valTick = (s 0).valTick ∧ (s k).clock = (s 0).clock := by
  obtain ⟨h1, h2, h3, h4, h5, h6, h7, h8, h9⟩ := (ctl_iff _ _).1 (h.sync k hk)
  exact ⟨h9.trans h.ncpu, h6, h5, h7, h4, h2, h3, h1⟩

theorem basicFinal_sum (K : Calc C S B G) (n : Nat) (hn : 1 ≤ n) (stru : S) (a : Nat → St C S G) (c : C)
    (hc : ∀ k, k < n → (a k).cfg = c) :
    ∑ k ∈ Finset.range n, (basicFinal K (k : Int) (n : Int) stru (a k)).value
      = basicValue K (K.custom stru c).1 stru := by
  rw [← bval_sum K _ stru n hn]
  apply Finset.sum_congr rfl
  intro k hk
  rw [basicFinal_value, hc k (Finset.mem_range.1 hk)]

theorem midFast_used (K : Calc C S B G) (s0 stru : S) (d : SD) (st : St C S G) :
    (midFast K s0 stru d st).used = st.used := by
  unfold midFast setStru clickPq; simp only; split <;> rfl

theorem midFast_cfg (K : Calc C S B G) (s0 stru : S) (d : SD) (st : St C S G) :
    (midFast K s0 stru d st).cfg = (K.custom stru st.cfg).1 := by
  unfold midFast; rw [setStru_cfg]; rfl

/-- `Lawful` for configurations that are in order, `P`: those that the structure's own configuration hook leaves. -/
structure LawfulOn (K : Calc C S B G) (P : C → Prop) : Prop where
  fast : ∀ c s0 s1, P c → (K.diff s0 s1).allowsFast = true →
    ((K.fixedIdx || K.hasPairMask c) = true → (K.diff s0 s1).method = .sideBySide) →
    basicValue K c s0
      + traceSum (K.con c s0) (fastTrace (K.gen c s0) (K.gen c s1) K.fullSum (K.use c s0)
          (K.use c s1) (K.count s0) (K.count s1) (K.diff s0 s1).pop0 (K.diff s0 s1).add1 0 1).1
      + traceSum (K.con c s1) (fastTrace (K.gen c s0) (K.gen c s1) K.fullSum (K.use c s0)
          (K.use c s1) (K.count s0) (K.count s1) (K.diff s0 s1).pop0 (K.diff s0 s1).add1 0 1).2
      = basicValue K c s1
  custom : ∀ s c, P c → (K.custom s c).2 = false → (K.custom s c).1 = c
  keep : ∀ s c, P (K.custom s c).1

theorem Lawful.on {K : Calc C S B G} (h : Lawful K) : LawfulOn K fun _ => True :=
  ⟨fun c s0 s1 _ => h.fast c s0 s1, fun s c _ => h.custom s c, fun _ _ => trivial⟩

/-- `Inv` with a configuration in order whenever the stored value is used. -/
structure InvOn (K : Calc C S B G) (P : C → Prop) (n : Nat) (s : Nat → St C S G) (t : Bool) : Prop extends Inv K n s t where
  ord : t = false → (s 0).pqTick ≥ (s 0).valTick ∨ (s 0).last = none ∨ P (s 0).cfg

theorem Inv.on {K : Calc C S B G} {n : Nat} {s : Nat → St C S G} {t : Bool} (h : Inv K n s t) : InvOn K (fun _ => True) n s t :=
  ⟨h, fun _ => Or.inr (Or.inr trivial)⟩

/-- The value and the structure after an OPTIMIZED evaluation of all jobs; of the stored value nothing needs to be known when the evaluation
is done in full. -/
theorem opt_core_on (K : Calc C S B G) (P : C → Prop) (hK : LawfulOn K P) (n : Nat) (hn : 1 ≤ n) (s : Nat → St C S G) (t : Bool)
    (h : InvOn K P n s t) (stru : S) (hful : (optFinal K stru (s 0)).used = .basic ∨ t = false) :
    ∑ k ∈ Finset.range n, (optFinal K stru (s k)).value
        = basicValue K (optFinal K stru (s 0)).cfg stru ∧
      (optFinal K stru (s 0)).cur = stru ∧ (optFinal K stru (s 0)).last = some stru := by
  have hch : ∀ k, k < n → fastChoice K (s k) stru = fastChoice K (s 0) stru := fun k hk =>
    fastChoice_ctl K stru _ _ (h.sync k hk)
  cases hf : fastChoice K (s 0) stru with
  | none =>
    have e : ∀ k, k < n → optFinal K stru (s k)
        = setLast (basicFinal K (k : Int) (n : Int) stru (s k)) := by
      intro k hk
      unfold optFinal
      rw [hch k hk, hf, h.idx k hk, (h.fields k hk).1]
    have e0 := e 0 (by omega)
    refine ⟨?_, ?_, ?_⟩
    · rw [Finset.sum_congr rfl fun k hk => by rw [e k (Finset.mem_range.1 hk)], e0]
      change ∑ k ∈ Finset.range n, (basicFinal K (k : Int) (n : Int) stru (s k)).value
        = basicValue K (basicFinal K ((0 : Nat) : Int) (n : Int) stru (s 0)).cfg stru
      rw [basicFinal_sum K n hn stru s (s 0).cfg fun k hk => (h.fields k hk).2.1, basicFinal_cfg]
    · rw [e0]; exact basicFinal_cur K ((0 : Nat) : Int) (n : Int) stru _
    · rw [e0]
      change some (basicFinal K ((0 : Nat) : Int) (n : Int) stru (s 0)).cur = _
      rw [basicFinal_cur]
  | some p =>
    obtain ⟨s0, d⟩ := p
    -- what the choice says about the state
    have hlast : (s 0).last = some s0 ∧ ¬ (s 0).pqTick ≥ (s 0).valTick ∧ d = K.diff s0 stru ∧
        d.allowsFast = true ∧ ((K.fixedIdx || K.hasPairMask (s 0).cfg) = true → d.method = .sideBySide) := by
      unfold fastChoice at hf
      cases hl : (s 0).last with
      | none => rw [hl] at hf; simp at hf
      | some x =>
        rw [hl] at hf
        simp only at hf
        split at hf
        · simp at hf
        · rename_i h1
          split at hf
          · simp at hf
          · rename_i h2
            split at hf
            · simp at hf
            · rename_i h3
              simp only [Option.some.injEq, Prod.mk.injEq] at hf
              obtain ⟨rfl, rfl⟩ := hf
              refine ⟨rfl, h1, rfl, by simpa using h2, ?_⟩
              intro h4
              rw [h4] at h3
              simpa using h3
    obtain ⟨hl, ht, hd, hfast, hidx⟩ := hlast
    have hcond : ∀ k, k < n → ((setStru K stru (s k)).pqTick ≥ (s k).valTick ↔
        (K.custom stru (s 0).cfg).2 = true) := by
      intro k hk
      obtain ⟨_, e2, _, _, _, e6, e7, e8⟩ := h.fields k hk
      unfold setStru clickPq
      rw [e2]
      by_cases hcl : (K.custom stru (s 0).cfg).2 = true
      · simp only [hcl, if_true]
        have := h.bnd.val
        constructor
        · intro _; trivial
        · intro _; rw [e7, e8]; omega
      · simp only [hcl]
        rw [e6, e7]
        constructor
        · intro hh; exact absurd hh ht
        · intro hh; exact absurd hh (by simp)
    by_cases hcl : (K.custom stru (s 0).cfg).2 = true
    · have e : ∀ k, k < n → optFinal K stru (s k) = setLast (basicFinal K (k : Int) (n : Int) stru
          (midFast K s0 stru d (setUsed .optimized (s k)))) := by
        intro k hk
        unfold optFinal
        rw [hch k hk, hf]
        simp only
        rw [if_pos ((hcond k hk).2 hcl), h.idx k hk, (h.fields k hk).1]
      have e0 := e 0 (by omega)
      refine ⟨?_, ?_, ?_⟩
      · rw [Finset.sum_congr rfl fun k hk => by rw [e k (Finset.mem_range.1 hk)], e0]
        change ∑ k ∈ Finset.range n, (basicFinal K (k : Int) (n : Int) stru
            (midFast K s0 stru d (setUsed .optimized (s k)))).value
          = basicValue K (basicFinal K ((0 : Nat) : Int) (n : Int) stru
            (midFast K s0 stru d (setUsed .optimized (s 0)))).cfg stru
        rw [basicFinal_sum K n hn stru _ (K.custom stru (s 0).cfg).1, basicFinal_cfg, midFast_cfg]
        · rfl
        · intro k hk
          rw [midFast_cfg]
          change (K.custom stru (s k).cfg).1 = _
          rw [(h.fields k hk).2.1]
      · rw [e0]; exact basicFinal_cur K ((0 : Nat) : Int) (n : Int) stru _
      · rw [e0]
        change some (basicFinal K ((0 : Nat) : Int) (n : Int) stru
          (midFast K s0 stru d (setUsed .optimized (s 0)))).cur = _
        rw [basicFinal_cur]
    · have e : ∀ k, k < n → optFinal K stru (s k) = fastFinal K s0 stru d (setUsed .optimized (s k)) := by
        intro k hk
        unfold optFinal
        rw [hch k hk, hf]
        simp only
        rw [if_neg (fun hh => hcl ((hcond k hk).1 hh))]
      have e0 := e 0 (by omega)
      have ht0 : t = false := by
        rcases hful with hu | hu
        · rw [e0] at hu
          have hu' : (midFast K s0 stru d (setUsed .optimized (s 0))).used = .basic := hu
          rw [midFast_used] at hu'
          cases hu'
        · exact hu
      have hgood := h.good ht0
      have hgd : (s 0).last = some (s 0).cur ∧ ∑ k ∈ Finset.range n, (s k).value = basicValue K (s 0).cfg (s 0).cur := by
        rcases hgood with hg | hg | hg
        · exact absurd hg ht
        · rw [hl] at hg; exact absurd hg (by simp)
        · exact hg
      obtain ⟨hg1, hg2⟩ := hgd
      have hP : P (s 0).cfg := by
        rcases h.ord ht0 with hg | hg | hg
        · exact absurd hg ht
        · rw [hl] at hg; exact absurd hg (by simp)
        · exact hg
      have hs0 : s0 = (s 0).cur := by rw [hl] at hg1; exact Option.some.inj hg1
      have hcfg : (K.custom stru (s 0).cfg).1 = (s 0).cfg := hK.custom _ _ hP (by simpa using hcl)
      have hcur : (midFast K s0 stru d (setUsed .optimized (s 0))).cur = stru := setStru_cur _ _ _
      refine ⟨?_, ?_, ?_⟩
      · rw [Finset.sum_congr rfl fun k hk => by rw [e k (Finset.mem_range.1 hk)], e0]
        have ec : (fastFinal K s0 stru d (setUsed .optimized (s 0))).cfg = (s 0).cfg := by
          change (midFast K s0 stru d (setUsed .optimized (s 0))).cfg = _
          rw [midFast_cfg]; exact hcfg
        rw [ec]
        have hterm : ∀ k ∈ Finset.range n, (fastFinal K s0 stru d (setUsed .optimized (s k))).value
            = (s k).value +
              (traceSum (K.con (s 0).cfg s0) (fastTrace (K.gen (s 0).cfg s0) (K.gen (s 0).cfg stru)
                K.fullSum (K.use (s 0).cfg s0) (K.use (s 0).cfg stru) (K.count s0) (K.count stru)
                d.pop0 d.add1 (k : Int) (n : Int)).1
              + traceSum (K.con (s 0).cfg stru) (fastTrace (K.gen (s 0).cfg s0) (K.gen (s 0).cfg stru)
                K.fullSum (K.use (s 0).cfg s0) (K.use (s 0).cfg stru) (K.count s0) (K.count stru)
                d.pop0 d.add1 (k : Int) (n : Int)).2) := by
          intro k hk
          have hk' := Finset.mem_range.1 hk
          obtain ⟨f1, f2, f3, _⟩ := h.fields k hk'
          change (s k).value + remSum K (setUsed .optimized (s k)) s0 d
            + addSum K (setUsed .optimized (s k)) s0 stru d = _
          have r1 : remSum K (setUsed .optimized (s k)) s0 d = remSum K (s k) s0 d := rfl
          have r2 : addSum K (setUsed .optimized (s k)) s0 stru d = addSum K (s k) s0 stru d := rfl
          rw [r1, r2]
          unfold remSum addSum fastTrace
          simp only
          rw [f1, f2, f3, h.idx k hk', hcfg, ← hs0, add_assoc]
        rw [Finset.sum_congr rfl hterm, Finset.sum_add_distrib, hg2, ← hs0,
          fast_update_parallel _ _ _ _ _ _ _ _ _ _ _ n hn, hd, ← add_assoc]
        rw [hd] at hfast hidx
        exact hK.fast (s 0).cfg s0 stru hP hfast hidx
      · rw [e0]; exact hcur
      · rw [e0]
        change some (midFast K s0 stru d (setUsed .optimized (s 0))).cur = _
        rw [hcur]

/-- The value and the structure after an OPTIMIZED evaluation of all jobs. -/
theorem opt_core (K : Calc C S B G) (hK : Lawful K) (n : Nat) (hn : 1 ≤ n) (s : Nat → St C S G)
    (h : Inv K n s false) (stru : S) :
    ∑ k ∈ Finset.range n, (optFinal K stru (s k)).value
        = basicValue K (optFinal K stru (s 0)).cfg stru ∧
      (optFinal K stru (s 0)).cur = stru ∧ (optFinal K stru (s 0)).last = some stru :=
  opt_core_on K _ hK.on n hn s false h.on stru (Or.inr rfl)

/-- Values and structure after `eval(stru)` of all jobs; of the stored value nothing needs to be known when the evaluation is done in full. -/
theorem eval_core_on (K : Calc C S B G) (P : C → Prop) (hK : LawfulOn K P) (n : Nat) (hn : 1 ≤ n) (s : Nat → St C S G) (t : Bool)
    (h : InvOn K P n s t) (stru : S) (hful : (evalSt K (s 0) stru).used = .basic ∨ t = false) :
    ∑ k ∈ Finset.range n, (evalSt K (s k) stru).value
        = basicValue K (evalSt K (s 0) stru).cfg stru ∧
      (evalSt K (s 0) stru).cur = stru ∧
      ((s 0).evtype = .optimized ∨ (s 0).evtype = .check → (evalSt K (s 0) stru).last = some stru) := by
  have hev : ∀ k, k < n → (s k).evtype = (s 0).evtype := fun k hk => (h.fields k hk).2.2.2.1
  by_cases h1 : (s 0).evtype = .optimized
  · have ho := opt_core_on K P hK n hn s t h stru (by
      rcases hful with hf | hf
      · rw [evalSt_eq, h1] at hf; exact Or.inl hf
      · exact Or.inr hf)
    have e : ∀ k, k < n → evalSt K (s k) stru = optFinal K stru (s k) := by
      intro k hk; rw [evalSt_eq, hev k hk, h1]
    rw [Finset.sum_congr rfl fun k hk => by rw [e k (Finset.mem_range.1 hk)], e 0 (by omega)]
    exact ⟨ho.1, ho.2.1, fun _ => ho.2.2⟩
  by_cases h2 : (s 0).evtype = .check
  · have ho := opt_core_on K P hK n hn s t h stru (by
      rcases hful with hf | hf
      · rw [evalSt_eq, h2] at hf
        simp only [checkFinal] at hf
        by_cases hb : (optFinal K stru (s 0)).used = .basic
        · exact Or.inl hb
        · rw [if_neg hb] at hf
          cases hf
      · exact Or.inr hf)
    have hu : ∀ k, k < n → (optFinal K stru (s k)).used = (optFinal K stru (s 0)).used := fun k hk =>
      ((ctl_iff _ _).1 (ctl_optFinal K stru _ _ (h.sync k hk))).2.2.2.2.2.2.2.1
    by_cases hb : (optFinal K stru (s 0)).used = .basic
    · have e : ∀ k, k < n → evalSt K (s k) stru = optFinal K stru (s k) := by
        intro k hk
        rw [evalSt_eq, hev k hk, h2]
        simp only [checkFinal]
        rw [if_pos ((hu k hk).trans hb)]
      rw [Finset.sum_congr rfl fun k hk => by rw [e k (Finset.mem_range.1 hk)], e 0 (by omega)]
      exact ⟨ho.1, ho.2.1, fun _ => ho.2.2⟩
    · have e : ∀ k, k < n → evalSt K (s k) stru = setUsed .check (basicFinal K (k : Int) (n : Int) stru
          (doSave (optFinal K stru (s k)))) := by
        intro k hk
        rw [evalSt_eq, hev k hk, h2]
        simp only [checkFinal]
        rw [if_neg (fun hh => hb ((hu k hk).symm.trans hh)), h.idx k hk, (h.fields k hk).1]
      rw [Finset.sum_congr rfl fun k hk => by rw [e k (Finset.mem_range.1 hk)], e 0 (by omega)]
      refine ⟨?_, basicFinal_cur K ((0 : Nat) : Int) (n : Int) stru _, fun _ => ?_⟩
      · change ∑ k ∈ Finset.range n, (basicFinal K (k : Int) (n : Int) stru
            (doSave (optFinal K stru (s k)))).value = basicValue K (basicFinal K ((0 : Nat) : Int) (n : Int) stru
            (doSave (optFinal K stru (s 0)))).cfg stru
        rw [basicFinal_sum K n hn stru _ (optFinal K stru (s 0)).cfg, basicFinal_cfg]
        · rfl
        · intro k hk
          exact ((ctl_iff _ _).1 (ctl_optFinal K stru _ _ (h.sync k hk))).2.2.2.2.2.1
      · have : (setStru K stru (setUsed .basic (doSave (optFinal K stru (s 0))))).last
            = (optFinal K stru (s 0)).last := by
          unfold setStru clickPq; simp only; split <;> rfl
        change (setStru K stru (setUsed .basic (doSave (optFinal K stru (s 0))))).last = _
        rw [this]; exact ho.2.2
  · have e : ∀ k, k < n → evalSt K (s k) stru = basicFinal K (k : Int) (n : Int) stru (s k) := by
      intro k hk
      rw [evalSt_eq, hev k hk, h.idx k hk, (h.fields k hk).1]
      cases hh : (s 0).evtype
      · rfl
      · rfl
      · exact absurd hh h1
      · exact absurd hh h2
    rw [Finset.sum_congr rfl fun k hk => by rw [e k (Finset.mem_range.1 hk)], e 0 (by omega)]
    refine ⟨?_, basicFinal_cur K ((0 : Nat) : Int) (n : Int) stru _, ?_⟩
    · rw [basicFinal_sum K n hn stru s (s 0).cfg fun k hk => (h.fields k hk).2.1, basicFinal_cfg]
    · rintro (hh | hh)
      · exact absurd hh h1
      · exact absurd hh h2

/-- Values and structure after `eval(stru)` of all jobs. -/
theorem eval_core (K : Calc C S B G) (hK : Lawful K) (n : Nat) (hn : 1 ≤ n) (s : Nat → St C S G)
    (h : Inv K n s false) (stru : S) :
    ∑ k ∈ Finset.range n, (evalSt K (s k) stru).value
        = basicValue K (evalSt K (s 0) stru).cfg stru ∧
      (evalSt K (s 0) stru).cur = stru ∧
      ((s 0).evtype = .optimized ∨ (s 0).evtype = .check → (evalSt K (s 0) stru).last = some stru) :=
  eval_core_on K _ hK.on n hn s false h.on stru (Or.inr rfl)

theorem eval_keeps (K : Calc C S B G) (st : St C S G) (stru : S) (h : Bnd st) :
    Bnd (evalSt K st stru) ∧ (evalSt K st stru).evtype = st.evtype ∧
      (evalSt K st stru).cpuindex = st.cpuindex ∧ (evalSt K st stru).ncpu = st.ncpu :=
  evalPrefix_keeps K st stru h _ fun _ hf => hf

theorem bnd_ctl (a b : St C S G) (h : ctl a = ctl b) (hb : Bnd b) : Bnd a := by
  obtain ⟨h1, h2, h3, h4, h5, h6, h7, h8, h9⟩ := (ctl_iff _ _).1 h
  exact ⟨by rw [h1, h2]; exact hb.pq, by rw [h1, h3]; exact hb.val,
    by rw [h7, h4]; exact hb.last⟩

theorem unprimed {st : St C S G} (h : ¬ Primed st) : st.pqTick ≥ st.valTick ∨ st.last = none := by
  by_cases hl : st.last = none
  · exact Or.inr hl
  · exact Or.inl (not_lt.1 fun hh => h ⟨hl, hh⟩)

theorem primed_ctl (a b : St C S G) (h : ctl a = ctl b) : Primed a ↔ Primed b := by
  rw [ctl_iff] at h
  obtain ⟨h1, h2, h3, h4, h5, h6, h7, h8, h9⟩ := h
  unfold Primed
  simp only [*]

/-- Every allowed call other than an evaluation keeps the invariant. -/
theorem inv_other (K : Calc C S B G) (n : Nat) (hn : 1 ≤ n) (s : Nat → St C S G) (t : Bool)
    (h : Inv K n s t) (op : Op C S) (ha : Allowed n op) (hne : ∀ stru, op ≠ .eval stru) :
    Inv K n (fun k => step K (s k) op) (taint K (s 0) t op) := by
  have hbk : ∀ k, k < n → Bnd (s k) := fun k hk => bnd_ctl _ _ (h.sync k hk) h.bnd
  cases op with
  | eval stru => exact absurd rfl (hne stru)
  | evalFail stru j =>
    simp only [Allowed] at ha
    subst ha
    have hk := evalPrefix_keeps K (s 0) stru h.bnd ((evalProg K (s 0) stru).take j)
      (fun f hf => List.mem_of_mem_take hf)
    refine ⟨?_, ?_, hk.2.2.2.trans h.ncpu, hk.1, ?_⟩
    · intro k hk'
      have : k = 0 := by omega
      subst this; rfl
    · intro k hk'
      have : k = 0 := by omega
      subst this; exact hk.2.2.1.trans (h.idx 0 (by omega))
    · intro ht
      simp only [taint, decide_eq_false_iff_not] at ht
      exact (unprimed ht).imp_right Or.inl
  | setStructure stru =>
    refine ⟨fun k hk => ctl_setStru K stru _ _ (h.sync k hk), ?_, ?_, (keeps_setStru K stru _ h.bnd).1, ?_⟩
    · intro k hk
      exact ((keeps_setStru K stru _ (hbk k hk)).2.2.1).trans (h.idx k hk)
    · exact ((keeps_setStru K stru _ h.bnd).2.2.2).trans h.ncpu
    · intro ht
      simp only [taint, decide_eq_false_iff_not] at ht
      exact (unprimed ht).imp_right Or.inl
  | configure f clicks =>
    cases clicks with
    | true =>
      refine ⟨?_, ?_, h.ncpu, ⟨Nat.le_refl _, Nat.le_succ_of_le h.bnd.val, h.bnd.last⟩, ?_⟩
      · intro k hk
        have := h.sync k hk
        rw [ctl_iff] at this ⊢
        obtain ⟨h1, h2, h3, h4, h5, h6, h7, h8, h9⟩ := this
        simp only [step, if_true, clickPq, h1, h3, h4, h5, h6, h7, h8, h9, and_self]
      · intro k hk; exact h.idx k hk
      · intro _
        left
        simp only [step, if_true, clickPq]
        have := h.bnd.val
        omega
    | false =>
      have hf : ∀ c, f c = c := ha rfl
      have e : ∀ k, step K (s k) (.configure f false) = s k := by
        intro k
        simp only [step, Bool.false_eq_true, if_false]
        rw [hf]
      simp only [e, taint, Bool.not_false, Bool.and_true]
      exact h
  | setType ty =>
    have hval : ∀ k, k < n → setTypeSt K ty (s k) = if (s 0).evtype = ty then s k
        else if ty = .none then s k else if ty ≠ .basic ∧ K.canStash = false then s k
        else { s k with evtype := ty, last := none, value := 0 } := by
      intro k hk
      unfold setTypeSt
      rw [(h.fields k hk).2.2.2.1]
    by_cases hsame : (s 0).evtype = ty ∨ ty = .none ∨ (ty ≠ .basic ∧ K.canStash = false)
    · have e : ∀ k, k < n → step K (s k) (.setType ty) = s k := by
        intro k hk
        simp only [step]
        rw [hval k hk]
        rcases hsame with hh | hh | hh
        · rw [if_pos hh]
        · rw [if_pos hh, ite_self]
        · rw [if_pos hh, ite_self, ite_self]
      have e0 := e 0 (by omega)
      have et : taint K (s 0) t (.setType ty) = t := by
        simp only [taint]
        simp only [step] at e0
        rw [e0]; simp
      rw [et]
      refine ⟨?_, ?_, ?_, ?_, ?_⟩
      · intro k hk; rw [e k hk, e0]; exact h.sync k hk
      · intro k hk; rw [e k hk]; exact h.idx k hk
      · rw [e0]; exact h.ncpu
      · rw [e0]; exact h.bnd
      · intro ht
        rw [e0, Finset.sum_congr rfl fun k hk => by rw [e k (Finset.mem_range.1 hk)]]
        exact h.good ht
    · push Not at hsame
      have e : ∀ k, k < n → step K (s k) (.setType ty) = { s k with evtype := ty, last := none, value := 0 } := by
        intro k hk
        simp only [step]
        rw [hval k hk, if_neg hsame.1, if_neg hsame.2.1, if_neg]
        rintro ⟨h1, h2⟩
        exact absurd h2 (by simpa using hsame.2.2 h1)
      have e0 := e 0 (by omega)
      refine ⟨?_, ?_, ?_, ?_, ?_⟩
      · intro k hk
        rw [e k hk, e0]
        have := h.sync k hk
        rw [ctl_iff] at this ⊢
        obtain ⟨h1, h2, h3, h4, h5, h6, h7, h8, h9⟩ := this
        exact ⟨h1, h2, h3, rfl, h5, h6, rfl, h8, h9⟩
      · intro k hk; rw [e k hk]; exact h.idx k hk
      · rw [e0]; exact h.ncpu
      · rw [e0]; exact ⟨h.bnd.pq, h.bnd.val, fun _ _ => rfl⟩
      · intro _
        rw [e0]
        right; left; rfl
  | setupParallel i m => exact absurd ha (by simp [Allowed])

/-- Every allowed call keeps the invariant. -/
theorem inv_step (K : Calc C S B G) (hK : Lawful K) (n : Nat) (hn : 1 ≤ n) (s : Nat → St C S G) (t : Bool)
    (h : Inv K n s t) (op : Op C S) (ha : Allowed n op) :
    Inv K n (fun k => step K (s k) op) (taint K (s 0) t op) := by
  have hbk : ∀ k, k < n → Bnd (s k) := fun k hk => bnd_ctl _ _ (h.sync k hk) h.bnd
  cases op with
  | eval stru =>
    refine ⟨fun k hk => ctl_evalSt K stru _ _ (h.sync k hk), ?_, ?_, (eval_keeps K _ stru h.bnd).1, ?_⟩
    · intro k hk
      exact ((eval_keeps K _ stru (hbk k hk)).2.2.1).trans (h.idx k hk)
    · exact ((eval_keeps K _ stru h.bnd).2.2.2).trans h.ncpu
    · intro ht
      have hful : (evalSt K (s 0) stru).used = .basic ∨ t = false := by
        simp only [taint, Bool.and_eq_false_iff, decide_eq_false_iff_not, not_not] at ht
        exact ht.symm
      obtain ⟨c1, c2, c3⟩ := eval_core_on K _ hK.on n hn s t h.on stru hful
      simp only [step]
      by_cases hev : (s 0).evtype = .optimized ∨ (s 0).evtype = .check
      · right; right
        rw [c2]
        exact ⟨c3 hev, c1⟩
      · right; left
        have := (eval_keeps K _ stru h.bnd)
        apply this.1.last
        · rw [this.2.1]; exact fun hh => hev (Or.inl hh)
        · rw [this.2.1]; exact fun hh => hev (Or.inr hh)
  | evalFail stru j => exact inv_other K n hn s t h _ ha (by simp)
  | setStructure stru => exact inv_other K n hn s t h _ ha (by simp)
  | configure f clicks => exact inv_other K n hn s t h _ ha (by simp)
  | setType ty => exact inv_other K n hn s t h _ ha (by simp)
  | setupParallel i m => exact absurd ha (by simp [Allowed])

theorem inv_run (K : Calc C S B G) (hK : Lawful K) (n : Nat) (hn : 1 ≤ n) (ops : List (Op C S))
    (ha : ∀ op ∈ ops, Allowed n op) (s : Nat → St C S G) (t : Bool) (h : Inv K n s t) :
    Inv K n (fun k => runOps K (s k) ops) (taintAfter K (s 0) t ops) := by
  induction ops generalizing s t with
  | nil => exact h
  | cons op ops ih =>
    have := inv_step K hK n hn s t h op (ha op (by simp))
    exact ih (fun o ho => ha o (by simp [ho])) _ _ this

theorem inv_init (K : Calc C S B G) (n : Nat) (c : C) (e : S) :
    Inv K n (fun k => init c e (k : Int) (n : Int)) false :=
  ⟨fun _ _ => rfl, fun _ _ => rfl, rfl, ⟨Nat.le_refl _, Nat.le_refl _, fun _ _ => rfl⟩,
    fun _ => Or.inr (Or.inl rfl)⟩

/-! ## C12 -/

/-- **C12** (partial): take `n` jobs of one calculator (`n = 1` is a serial calculator) through any
history of evaluations, clicking configuration changes, evaluator switches, `setStructure` calls and,
for `n = 1`, failing evaluations.  If the history leaves no taint (see `taint`), the next `eval`
returns values that add up to the BASIC value for the same structure and configuration.
Missing from the full property: histories with a taint, for which it is false (below). -/
theorem history_value_partial (K : Calc C S B G) (hK : Lawful K) (n : Nat) (hn : 1 ≤ n) (c : C) (e : S)
    (ops : List (Op C S)) (ha : ∀ op ∈ ops, Allowed n op)
    (ht : taintAfter K (init c e 0 (n : Int)) false ops = false) (stru : S) :
    ∑ k ∈ Finset.range n, (evalSt K (runOps K (init c e (k : Int) (n : Int)) ops) stru).value
      = basicValue K (evalSt K (runOps K (init c e 0 (n : Int)) ops) stru).cfg stru := by
  have h := inv_run K hK n hn ops ha _ false (inv_init K n c e)
  simp only [Nat.cast_zero] at h
  rw [ht] at h
  exact (eval_core K hK n hn _ h stru).1

/-- **C12** for one serial calculator, with its result: the evaluation returns the BASIC value,
and the self-check of the CHECK evaluator does not throw. -/
theorem history_result_partial (K : Calc C S B G) (hK : Lawful K) (c : C) (e : S)
    (ops : List (Op C S)) (ha : ∀ op ∈ ops, Allowed 1 op)
    (ht : taintAfter K (init c e 0 1) false ops = false) (stru : S) :
    evalResult K (runOps K (init c e 0 1) ops) stru
      = some (basicValue K (evalSt K (runOps K (init c e 0 1) ops) stru).cfg stru) := by
  have h := inv_run K hK 1 (le_refl _) ops ha _ false (inv_init K 1 c e)
  simp only [Nat.cast_zero, Nat.cast_one] at h
  rw [ht] at h
  generalize hs : runOps K (init c e 0 1) ops = st at h ⊢
  have hc := (eval_core K hK 1 (le_refl _) _ h stru).1
  simp only [Finset.range_one, Finset.sum_singleton, Nat.cast_zero, hs] at hc
  unfold evalResult
  simp only
  rw [if_neg, hc]
  rintro ⟨h1, h2, h3⟩
  have ho := (opt_core K hK 1 (le_refl _) _ h stru).1
  simp only [Finset.range_one, Finset.sum_singleton, Nat.cast_zero, hs] at ho
  rw [evalSt_eq, h1] at h2 h3
  simp only [checkFinal] at h2 h3
  by_cases hb : (optFinal K stru st).used = .basic
  · rw [if_pos hb, hb] at h2; exact absurd h2 (by simp)
  · rw [if_neg hb] at h3
    have hcur := (opt_core K hK 1 (le_refl _) _ h stru).2.1
    -- the fast path was taken without a click, so the configuration hook changes nothing
    have hcus : (K.custom stru (optFinal K stru st).cfg).1 = (optFinal K stru st).cfg := by
      unfold optFinal at hb ⊢
      cases hf : fastChoice K st stru with
      | none =>
        rw [hf] at hb
        exfalso; apply hb
        change (setStru K stru (setUsed .basic st)).used = _
        unfold setStru clickPq; simp only; split <;> rfl
      | some p =>
        obtain ⟨s0, d⟩ := p
        rw [hf] at hb
        simp only at hb ⊢
        by_cases hp : (setStru K stru st).pqTick ≥ st.valTick
        · rw [if_pos hp] at hb
          exfalso; apply hb
          change (setStru K stru (setUsed .basic (midFast K s0 stru d _))).used = _
          unfold setStru clickPq; simp only; split <;> rfl
        · rw [if_neg hp]
          change (K.custom stru (midFast K s0 stru d (setUsed .optimized st)).cfg).1
            = (midFast K s0 stru d (setUsed .optimized st)).cfg
          rw [midFast_cfg]
          change (K.custom stru (K.custom stru st.cfg).1).1 = (K.custom stru st.cfg).1
          have hno : (K.custom stru st.cfg).2 = false := by
            by_contra hcl
            apply hp
            have hcl' : (K.custom stru st.cfg).2 = true := by simpa using hcl
            unfold setStru clickPq
            simp only [hcl', if_true]
            have hbnd : st.valTick ≤ st.clock := by
              have := h.bnd.val; simp only [Nat.cast_zero, hs] at this; exact this
            omega
          rw [hK.custom _ _ hno, hK.custom _ _ hno]
    have hsv : (setUsed .check (basicFinal K st.cpuindex st.ncpu stru (doSave (optFinal K stru st)))).saved
        = (optFinal K stru st).value := by
      change (setStru K stru (setUsed .basic (doSave (optFinal K stru st)))).saved = _
      unfold setStru clickPq; simp only; split <;> rfl
    have hidx : st.cpuindex = 0 := by have := h.idx 0 (by omega); simp only [hs, Nat.cast_zero] at this; exact this
    have hncpu : st.ncpu = 1 := by
      have := h.ncpu; simp only [Nat.cast_zero, hs, Nat.cast_one] at this; exact this
    have hvv : (setUsed .check (basicFinal K st.cpuindex st.ncpu stru (doSave (optFinal K stru st)))).value
        = basicValue K (optFinal K stru st).cfg stru := by
      change bval K (K.custom stru (optFinal K stru st).cfg).1 stru st.cpuindex st.ncpu = _
      rw [hcus, hidx, hncpu]
      have := bval_sum K (optFinal K stru st).cfg stru 1 (le_refl _)
      simp only [Finset.range_one, Finset.sum_singleton, Nat.cast_zero, Nat.cast_one] at this
      exact this
    rw [hsv, hvv, ho, hK.close] at h3
    exact absurd h3 (by simp)

/-- **C12** for calculators that stay BASIC: every evaluation in every history, failures and
`setStructure` included, returns the BASIC value. -/
theorem basic_history (K : Calc C S B G) (hK : Lawful K) (c : C) (e : S) (ops : List (Op C S))
    (ha : ∀ op ∈ ops, Allowed 1 op) (hb : ∀ t, Op.setType t ∈ ops → t = .basic) (stru : S) :
    evalResult K (runOps K (init c e 0 1) ops) stru
      = some (basicValue K (evalSt K (runOps K (init c e 0 1) ops) stru).cfg stru) := by
  apply history_result_partial K hK c e ops ha
  have key : ∀ (ops : List (Op C S)) (st : St C S G), Bnd st → st.evtype = .basic →
      (∀ op ∈ ops, Allowed 1 op) → (∀ t, Op.setType t ∈ ops → t = .basic) →
      taintAfter K st false ops = false := by
    intro ops
    induction ops with
    | nil => intro st _ _ _ _; rfl
    | cons op ops ih =>
      intro st hbd he ha hb
      have hstep : Bnd (step K st op) ∧ (step K st op).evtype = .basic := by
        cases op with
        | eval stru => have := eval_keeps K st stru hbd; exact ⟨this.1, this.2.1.trans he⟩
        | evalFail stru j =>
          have := evalPrefix_keeps K st stru hbd ((evalProg K st stru).take j)
            (fun f hf => List.mem_of_mem_take hf)
          exact ⟨this.1, this.2.1.trans he⟩
        | setStructure stru =>
          have := keeps_setStru K stru st hbd; exact ⟨this.1, this.2.1.trans he⟩
        | configure f clicks =>
          cases clicks
          · exact ⟨⟨hbd.pq, hbd.val, hbd.last⟩, he⟩
          · exact ⟨⟨Nat.le_refl _, Nat.le_succ_of_le hbd.val, hbd.last⟩, he⟩
        | setType t =>
          have := hb t (by simp)
          subst this
          simp only [step, setTypeSt, he, if_true]
          exact ⟨hbd, trivial⟩
        | setupParallel i m =>
          have := ha (.setupParallel i m) (by simp)
          exact absurd this (by simp [Allowed])
      have ht : taint K st false op = false := by
        cases op with
        | setupParallel i m =>
          have := ha (.setupParallel i m) (by simp)
          exact absurd this (by simp [Allowed])
        | evalFail stru j =>
          have hl : (step K st (.evalFail stru j)).last = none :=
            hstep.1.last (by rw [hstep.2]; simp) (by rw [hstep.2]; simp)
          exact decide_eq_false fun hp => hp.1 hl
        | setStructure stru =>
          have hl : (step K st (.setStructure stru)).last = none :=
            hstep.1.last (by rw [hstep.2]; simp) (by rw [hstep.2]; simp)
          exact decide_eq_false fun hp => hp.1 hl
        | _ => simp [taint]
      simp only [taintAfter]
      rw [ht]
      exact ih _ hstep.1 hstep.2 (fun o ho => ha o (by simp [ho])) (fun t h => hb t (by simp [h]))
  exact key ops _ ⟨Nat.le_refl _, Nat.le_refl _, fun _ _ => rfl⟩ rfl ha hb

/-! ## Calculators on atomic structures are lawful -/

/-- **C12**, instance: a calculator whose bonds, contributions and masks are given by the atoms of
the two sites (and the site indices when pair masks or FIXEDSITEINDEX are in use) and whose structures
are compared by `AtomicStructureAdapter::diff` meets `Lawful`. -/
theorem atomic_lawful (K : Calc C (List Atom) B G) (s : Sorter) (hs : SortSpec s)
    (hdiff : ∀ a0 a1, K.diff a0 a1 = atomicDiff s false true a0 a1)
    (hcount : ∀ a, K.count a = a.length)
    (bonds : C → Nat → Nat → Option Atom → Option Atom → List B)
    (con : C → Nat → Nat → Option Atom → Option Atom → B → G)
    (use : C → Nat → Nat → Option Atom → Option Atom → Bool)
    (hgen : ∀ c a, GenSpec (K.gen c a) (fun i j => bonds c i j a[i]? a[j]?))
    (hcon : ∀ c (a : List Atom) i j b, K.con c a i j b = con c i j a[i]? a[j]? b)
    (huse : ∀ c (a : List Atom) i j, K.use c a i j = use c i j a[i]? a[j]?)
    (hsym : K.fullSum = false → ∀ c i j a b, use c i j a b = use c j i b a ∧
      ((bonds c i j a b).map (con c i j a b)).sum = ((bonds c j i b a).map (con c j i b a)).sum)
    (hidx : ∀ c, (K.fixedIdx || K.hasPairMask c) = false →
      ∀ i j i' j' a b, (i = j ↔ i' = j') → use c i j a b = use c i' j' a b ∧
        bonds c i j a b = bonds c i' j' a b ∧ con c i j a b = con c i' j' a b)
    (hcustom : ∀ s c, (K.custom s c).2 = false → (K.custom s c).1 = c)
    (hclose : ∀ v, K.close v v = true) : Lawful K where
  custom := hcustom
  close := hclose
  fast := by
    intro c a0 a1 hf hm
    have h := fast_update_of_diff s hs false true a0 a1 (by intro h; cases h) (K.gen c a0) (K.gen c a1)
      (bonds c) (con c) (use c) (hgen c a0) (hgen c a1) K.fullSum
      (fun hfs i j a b => hsym hfs c i j a b) (by rw [← hdiff]; exact hf)
      (by
        intro hne
        cases hx : (K.fixedIdx || K.hasPairMask c) with
        | false => exact hidx c hx
        | true => exact absurd (by rw [← hdiff]; exact hm hx) hne) true true
    have e1 : ∀ a, K.con c a = fun i j b => con c i j a[i]? a[j]? b := fun a => by
      funext i j b; exact hcon c a i j b
    have e2 : ∀ a, K.use c a = fun i j => use c i j a[i]? a[j]? := fun a => by
      funext i j; exact huse c a i j
    unfold basicValue
    rw [e1, e1, e2, e2, hcount, hcount, hdiff]
    exact h

/-! ### A concrete calculator: the number of pairs (i, j) with |x_i - x_j| ≤ c -/

/-- Bonds of the example: atoms on a line, closer than the configured limit. -/
def exBonds (c : Rat) (i j : Nat) (a b : Option Atom) : List Unit :=
  match a, b with
  | some a, some b => if i ≠ j ∧ a.x - b.x ≤ c ∧ b.x - a.x ≤ c then [()] else []
  | _, _ => []

/-- Example calculator; it counts ordered pairs. -/
def exCalc : Calc Rat (List Atom) Unit Int where
  fullSum := false
  fixedIdx := false
  canStash := true
  hasPairMask _ := false
  rule := chopOuterRule
  count a := a.length
  gen c a i sel := sel.flatMap fun j => (exBonds c i j a[i]? a[j]?).map fun b => (j, b)
  use _ _ _ _ := true
  con _ _ _ _ _ := 1
  custom _ c := (c, false)
  diff := atomicDiff exSorter false true
  close x y := decide (x = y)

/-- The example calculator is lawful, so the theorems above apply to it. -/
theorem exCalc_lawful : Lawful exCalc := by
  apply atomic_lawful exCalc exSorter exSorter_spec (fun _ _ => rfl) (fun _ => rfl) exBonds
    (fun _ _ _ _ _ _ => (1 : Int)) (fun _ _ _ _ _ => true)
  · intro c a i sel; exact List.Perm.refl _
  · intro c a i j b; rfl
  · intro c a i j; rfl
  · intro _ c i j a b
    refine ⟨rfl, ?_⟩
    have : exBonds c i j a b = exBonds c j i b a := by
      unfold exBonds
      cases a <;> cases b <;> simp only
      congr 1
      apply propext
      constructor
      · rintro ⟨h1, h2, h3⟩; exact ⟨Ne.symm h1, h3, h2⟩
      · rintro ⟨h1, h2, h3⟩; exact ⟨Ne.symm h1, h3, h2⟩
    rw [this]
  · intro c _ i j i' j' a b h
    refine ⟨rfl, ?_, rfl⟩
    unfold exBonds
    cases a <;> cases b <;> simp only [ne_eq, h]
  · intro _ _ _; rfl
  · intro v; simp [exCalc]

/-- Structures of the examples. -/
def struA : List Atom := [exAtom "C" 0, exAtom "C" 1, exAtom "C" 2, exAtom "C" 3]
def struB : List Atom := [exAtom "C" 0, exAtom "C" 9, exAtom "C" 2, exAtom "C" 3]

/-- A history with fast updates that meets the hypotheses of `history_result_partial`. -/
def exOps : List (Op Rat (List Atom)) :=
  [.setType .optimized, .eval struA, .eval struB, .setStructure struA, .configure (fun _ => 5) true,
    .eval struA]

example : (∀ op ∈ exOps, Allowed 1 op) ∧ taintAfter exCalc (init 1 [] 0 1) false exOps = false := by
  refine ⟨?_, by decide +kernel⟩
  intro op h
  simp only [exOps, List.mem_cons, List.not_mem_nil, or_false] at h
  rcases h with rfl | rfl | rfl | rfl | rfl | rfl <;> simp [Allowed]

/-- The last evaluation of the example is a fast update and gives the BASIC value 6 (before: 12). -/
example : evalResult exCalc (runOps exCalc (init 1 [] 0 1) exOps) struB = some 6 ∧
    (evalSt exCalc (runOps exCalc (init 1 [] 0 1) exOps) struB).used = .optimized ∧
    basicValue exCalc 5 struB = 6 ∧ basicValue exCalc 5 struA = 12 := by decide +kernel

/-! ## The conditions are needed -/

/-- **C12 is false of the code** for `setStructure` between evaluations: with the OPTIMIZED
evaluator `eval(A); setStructure(B); eval(A')` updates the value that `setStructure` reset. -/
theorem setStructure_breaks_optimized : ∃ (ops : List (Op Rat (List Atom))) (stru : List Atom),
    (∀ op ∈ ops, Allowed 1 op) ∧
    evalResult exCalc (runOps exCalc (init 5 [] 0 1) ops) stru ≠ some (basicValue exCalc 5 stru) := by
  refine ⟨[.setType .optimized, .eval struA, .setStructure struB], struA, ?_, by decide +kernel⟩
  intro op h
  simp only [List.mem_cons, List.not_mem_nil, or_false] at h
  rcases h with rfl | rfl | rfl <;> simp [Allowed]

/-- **C13 is false of the code** for the OPTIMIZED evaluator: an exception during the removal
phase of a fast update leaves a partial value that the next evaluation builds on. -/
theorem failed_eval_breaks_optimized : ∃ (ops : List (Op Rat (List Atom))) (stru : List Atom),
    (∀ op ∈ ops, Allowed 1 op) ∧
    evalResult exCalc (runOps exCalc (init 5 [] 0 1) ops) stru ≠ some (basicValue exCalc 5 stru) := by
  refine ⟨[.setType .optimized, .eval struA, .evalFail struB 3], struB, ?_, by decide +kernel⟩
  intro op h
  simp only [List.mem_cons, List.not_mem_nil, or_false] at h
  rcases h with rfl | rfl | rfl <;> simp [Allowed]

/-- The self-check of the CHECK evaluator notices that wrong value. -/
theorem failed_eval_check_throws :
    evalResult exCalc (runOps exCalc (init 5 [] 0 1)
      [.setType .check, .eval struA, .evalFail struB 3]) struB = none := by decide +kernel

/-- **C12 is false of the code** for `setupParallelRun` after an OPTIMIZED evaluation: the call
does not invalidate the stored serial value, so the two jobs' results do not add up. -/
theorem setupParallel_breaks_optimized :
    (evalSt exCalc (runOps exCalc (init 5 [] 0 1)
        [.setType .optimized, .eval struA, .setupParallel 0 2]) struA).value
      + (evalSt exCalc (runOps exCalc (init 5 [] 0 1)
        [.setType .optimized, .eval struA, .setupParallel 1 2]) struA).value
      ≠ basicValue exCalc 5 struA := by decide +kernel

/-- The CHECK evaluator throws in a correct parallel run: the share of the pairs of one job is not
the same in a fast and in a full evaluation, although the total over the jobs is. -/
theorem check_throws_in_parallel :
    evalResult exCalc (runOps exCalc (init 5 [] 0 2) [.setType .check, .eval struA]) struB = none ∧
    (evalSt exCalc (runOps exCalc (init 5 [] 0 2) [.setType .optimized, .eval struA]) struB).value
      + (evalSt exCalc (runOps exCalc (init 5 [] 1 2) [.setType .optimized, .eval struA]) struB).value
      = basicValue exCalc 5 struB := by decide +kernel

/-! ## C13 -/

/-- **C13** (partial): after any history and an evaluation that throws at any point, a clicking
configuration change restores a correct calculator. -/
theorem failed_eval_recovers_partial (K : Calc C S B G) (hK : Lawful K) (c : C) (e : S)
    (ops : List (Op C S)) (ha : ∀ op ∈ ops, Allowed 1 op) (bad stru : S) (k : Nat) (f : C → C) :
    evalResult K (runOps K (init c e 0 1) (ops ++ [.evalFail bad k, .configure f true])) stru
      = some (basicValue K (evalSt K (runOps K (init c e 0 1)
          (ops ++ [.evalFail bad k, .configure f true])) stru).cfg stru) := by
  apply history_result_partial K hK
  · intro op hop
    rcases List.mem_append.1 hop with h | h
    · exact ha op h
    · simp only [List.mem_cons, List.not_mem_nil, or_false] at h
      rcases h with rfl | rfl <;> simp [Allowed]
  · have : ∀ (l : List (Op C S)) (st : St C S G) (t : Bool),
        taintAfter K st t (l ++ [.evalFail bad k, .configure f true]) = false := by
      intro l
      induction l with
      | nil => intro st t; simp [taintAfter, taint]
      | cons a l ih => intro st t; exact ih _ _
    exact this ops _ _

/-- **C13** for the BASIC evaluator: failures at any point of any earlier evaluations have no
effect on later ones. -/
theorem failed_eval_basic (K : Calc C S B G) (hK : Lawful K) (c : C) (e : S)
    (fails : List (S × Nat)) (stru : S) :
    evalResult K (runOps K (init c e 0 1) (fails.map fun p => Op.evalFail p.1 p.2)) stru
      = some (basicValue K (evalSt K (runOps K (init c e 0 1)
          (fails.map fun p => Op.evalFail p.1 p.2)) stru).cfg stru) := by
  apply basic_history K hK
  · intro op h
    obtain ⟨p, _, rfl⟩ := List.mem_map.1 h
    simp [Allowed]
  · intro t h
    obtain ⟨p, _, h⟩ := List.mem_map.1 h
    exact absurd h (by simp)

/-- **C12**, **C13**: an evaluation that reports BASIC as the evaluator used returns the BASIC value, with no condition on the
history: the jobs' values add up to it after any `setStructure` calls, fast updates and (for one job) failed evaluations. -/
theorem full_eval_value (K : Calc C S B G) (hK : Lawful K) (n : Nat) (hn : 1 ≤ n) (c : C) (e : S)
    (ops : List (Op C S)) (ha : ∀ op ∈ ops, Allowed n op) (stru : S)
    (hu : (evalSt K (runOps K (init c e 0 (n : Int)) ops) stru).used = .basic) :
    ∑ k ∈ Finset.range n, (evalSt K (runOps K (init c e (k : Int) (n : Int)) ops) stru).value
      = basicValue K (evalSt K (runOps K (init c e 0 (n : Int)) ops) stru).cfg stru := by
  have h := inv_run K hK n hn ops ha _ false (inv_init K n c e)
  exact (eval_core_on K _ hK.on n hn _ _ h.on stru (Or.inl hu)).1

/-- It is not a failure of the evaluation itself, and all later evaluations are right until the next `setStructure` or failure:
the history up to and including it leaves no taint. -/
theorem full_eval_clears (K : Calc C S B G) (st : St C S G) (t : Bool) (ops : List (Op C S)) (stru : S)
    (hu : (evalSt K (runOps K st ops) stru).used = .basic) : taintAfter K st t (ops ++ [.eval stru]) = false := by
  induction ops generalizing st t with
  | nil =>
    show (t && decide ((evalSt K st stru).used ≠ .basic)) = false
    have hu' : (evalSt K st stru).used = .basic := hu
    simp [hu']
  | cons op ops ih => exact ih _ _ hu

/-- The evaluation of `stru` that throws after `k` state changes throws before its value is complete. -/
def Early (K : Calc C S B G) (st : St C S G) (stru : S) (k : Nat) : Prop := k + 2 ≤ (evalProg K st stru).length

/-- A sequence of evaluations, all of which throw before their values are complete. -/
def EarlyAll (K : Calc C S B G) : St C S G → List (S × Nat) → Prop
  | _, [] => True
  | st, p :: ps => Early K st p.1 p.2 ∧ EarlyAll K (step K st (.evalFail p.1 p.2)) ps

theorem exec_quiet (p : Prog C S G) (hp : ∀ f ∈ p, ∀ st : St C S G, Bnd st → Bnd (f st) ∧ ((¬ Primed st) → ¬ Primed (f st))) (st : St C S G)
    (hb : Bnd st) (h : ¬ Primed st) : ¬ Primed (exec p st) := by
  induction p generalizing st with
  | nil => exact h
  | cons f p ih =>
    obtain ⟨h1, h2⟩ := hp f (by simp) st hb
    exact ih (fun g hg => hp g (by simp [hg])) _ h1 (h2 h)

theorem basic_body_quiet (K : Calc C S B G) (stru : S) (tr : List (Contrib B)) :
    ∀ f ∈ [setUsed .optimized, setUsed .basic, setStru K stru] ++ tr.map (addC K), ∀ st : St C S G, Bnd st →
      Bnd (f st) ∧ (¬ Primed st → ¬ Primed (f st)) := by
  intro f hf st hb
  simp only [List.cons_append, List.nil_append, List.mem_cons, List.mem_map] at hf
  rcases hf with rfl | rfl | rfl | ⟨t, -, rfl⟩
  · exact ⟨⟨hb.pq, hb.val, hb.last⟩, id⟩
  · exact ⟨⟨hb.pq, hb.val, hb.last⟩, id⟩
  · refine ⟨(keeps_setStru K stru st hb).1, fun h hp => ?_⟩
    have e1 : (setStru K stru st).last = st.last := by unfold setStru clickPq; simp only; split <;> rfl
    have e2 : (setStru K stru st).valTick = st.valTick := by unfold setStru clickPq; simp only; split <;> rfl
    have e3 : (setStru K stru st).pqTick = st.clock + 1 ∨ (setStru K stru st).pqTick = st.pqTick := by
      unfold setStru clickPq; simp only; split
      · exact Or.inl rfl
      · exact Or.inr rfl
    obtain ⟨hp1, hp2⟩ := hp
    rw [e1] at hp1
    rw [e2] at hp2
    have h1 : st.valTick ≤ st.pqTick := not_lt.1 fun hh => h ⟨hp1, hh⟩
    have := hb.val
    rcases e3 with e3 | e3 <;> omega
  · exact ⟨⟨hb.pq, hb.val, hb.last⟩, id⟩

/-- When nothing has been evaluated since the last change, a failing evaluation leaves it so. -/
theorem early_unprimed (K : Calc C S B G) (st : St C S G) (stru : S) (k : Nat) (hb : Bnd st) (h : ¬ Primed st) (hk : Early K st stru k) :
    ¬ Primed (step K st (.evalFail stru k)) := by
  have hkeep := evalPrefix_keeps K st stru hb ((evalProg K st stru).take k) (fun f hf => List.mem_of_mem_take hf)
  by_cases hev : st.evtype = .optimized ∨ st.evtype = .check
  · have hfc : fastChoice K st stru = none := by
      unfold fastChoice
      cases hl : st.last with
      | none => rfl
      | some s0 =>
        have : st.pqTick ≥ st.valTick := not_lt.1 fun hh => h ⟨by rw [hl]; simp, hh⟩
        simp only [this, if_true]
    have hprog : evalProg K st stru = optProg K st stru := by
      unfold evalProg
      rcases hev with he | he
      · rw [he]
      · rw [he]
        dsimp only
        unfold checkProg
        have hu : (exec (optProg K st stru) st).used = .basic := by
          rw [exec_opt]
          unfold optFinal
          rw [hfc]
          show (setStru K stru (setUsed .basic st)).used = _
          unfold setStru clickPq; simp only; split <;> rfl
        dsimp only
        rw [if_pos hu, List.append_nil]
    have hbody : ∃ tr : List (Contrib B), optProg K st stru =
        ([setUsed .optimized, setUsed .basic, setStru K stru] ++ tr.map (addC K)) ++ [clickVal, setLast] := by
      unfold optProg
      rw [hfc]
      exact ⟨_, by simp only [completeProg, basicProg, List.append_assoc, List.cons_append, List.nil_append]; rfl⟩
    obtain ⟨tr, htr⟩ := hbody
    unfold Early at hk
    rw [hprog, htr, List.length_append] at hk
    show ¬ Primed (exec ((evalProg K st stru).take k) st)
    rw [hprog, htr, List.take_append_of_le_length (by simpa using hk)]
    exact exec_quiet _ (fun f hf => basic_body_quiet K stru tr f (List.mem_of_mem_take hf)) st hb h
  · intro hp
    apply hp.1
    apply hkeep.1.last
    · show (exec _ st).evtype ≠ _
      rw [hkeep.2.1]; exact fun hh => hev (Or.inl hh)
    · show (exec _ st).evtype ≠ _
      rw [hkeep.2.1]; exact fun hh => hev (Or.inr hh)

/-- **C13**: after a change of the configuration, or of the evaluator, evaluations that throw do no harm, however many there are and
whichever evaluator is in use: the next evaluation returns the BASIC value.  `last` is that change. -/
theorem failed_evals_harmless (K : Calc C S B G) (hK : Lawful K) (c : C) (e : S)
    (ops : List (Op C S)) (ha : ∀ op ∈ ops, Allowed 1 op) (last : Op C S)
    (hl : (∃ f, last = .configure f true) ∨ ∃ ty, last = .setType ty ∧
      (setTypeSt K ty (runOps K (init c e 0 1) ops)).evtype ≠ (runOps K (init c e 0 1) ops).evtype)
    (fails : List (S × Nat)) (hf : EarlyAll K (runOps K (init c e 0 1) (ops ++ [last])) fails) (stru : S) :
    evalResult K (runOps K (init c e 0 1) (ops ++ [last] ++ fails.map fun p => Op.evalFail p.1 p.2)) stru
      = some (basicValue K (evalSt K (runOps K (init c e 0 1)
          (ops ++ [last] ++ fails.map fun p => Op.evalFail p.1 p.2)) stru).cfg stru) := by
  have hlast : Allowed 1 last := by
    rcases hl with ⟨f, rfl⟩ | ⟨ty, rfl, -⟩
    · intro h; cases h
    · trivial
  have hall : ∀ op ∈ ops ++ [last], Allowed 1 op := by
    intro op hop
    rcases List.mem_append.1 hop with h | h
    · exact ha op h
    · rw [List.mem_singleton.1 h]; exact hlast
  have hbnd : ∀ l : List (Op C S), (∀ op ∈ l, Allowed 1 op) → Bnd (runOps K (init c e 0 1) l) := by
    intro l h
    have := (inv_run K hK 1 (le_refl _) l h _ false (inv_init K 1 c e)).bnd
    simpa using this
  have happ : ∀ (l m : List (Op C S)) (st : St C S G) (t : Bool), taintAfter K st t (l ++ m) =
      taintAfter K (runOps K st l) (taintAfter K st t l) m := by
    intro l
    induction l with
    | nil => intro m st t; rfl
    | cons a l ih => intro m st t; exact ih m _ _
  apply history_result_partial K hK
  · intro op hop
    rcases List.mem_append.1 hop with h | h
    · exact hall op h
    · obtain ⟨p, -, rfl⟩ := List.mem_map.1 h
      exact rfl
  · rw [happ]
    have hstart : ¬ Primed (runOps K (init c e 0 1) (ops ++ [last])) ∧ taintAfter K (init c e 0 1) false (ops ++ [last]) = false := by
      rw [happ]
      have hb := hbnd ops ha
      have hr : runOps K (init c e 0 1) (ops ++ [last]) = step K (runOps K (init c e 0 1) ops) last := by
        unfold runOps; rw [List.foldl_append]; rfl
      rw [hr]
      generalize runOps K (init c e 0 1) ops = st at hb hl ⊢
      rcases hl with ⟨f, rfl⟩ | ⟨ty, rfl, hty⟩
      · refine ⟨fun hp => ?_, by simp [taintAfter, taint]⟩
        have h1 : st.clock + 1 < st.valTick := hp.2
        have := hb.val
        omega
      · refine ⟨fun hp => hp.1 ?_, by simp [taintAfter, taint, hty]⟩
        show (setTypeSt K ty st).last = none
        unfold setTypeSt at hty ⊢
        split at hty
        · exact absurd rfl hty
        · rename_i h1
          rw [if_neg h1]
          split at hty
          · exact absurd rfl hty
          · rename_i h2
            rw [if_neg h2]
            split at hty
            · exact absurd rfl hty
            · rename_i h3
              rw [if_neg h3]
    rw [hstart.2]
    have hb := hbnd _ hall
    generalize runOps K (init c e 0 1) (ops ++ [last]) = st at hb hstart hf ⊢
    replace hstart := hstart.1
    induction fails generalizing st with
    | nil => rfl
    | cons p ps ih =>
      obtain ⟨h1, h2⟩ := hf
      have hnp := early_unprimed K st p.1 p.2 hb hstart h1
      have hbb := (evalPrefix_keeps K st p.1 hb ((evalProg K st p.1).take p.2) (fun f hf => List.mem_of_mem_take hf)).1
      show taintAfter K (step K st (.evalFail p.1 p.2)) (decide (Primed (step K st (.evalFail p.1 p.2)))) _ = false
      rw [decide_eq_false hnp]
      exact ih _ hbb h2 hnp

/-- The hypotheses are met by evaluations that throw in the middle of a full OPTIMIZED evaluation, after a fast update and a change of
the configuration; the next evaluation is right. -/
example : EarlyAll exCalc (runOps exCalc (init 1 [] 0 1) ([.setType .optimized, .eval struA, .eval struB] ++ [.configure (fun _ => 5) true]))
      [(struA, 6), (struB, 3), (struA, 0)] ∧
    evalResult exCalc (runOps exCalc (init 1 [] 0 1) ([.setType .optimized, .eval struA, .eval struB] ++ [.configure (fun _ => 5) true] ++
      ([(struA, 6), (struB, 3), (struA, 0)].map fun p => Op.evalFail p.1 p.2))) struA = some 12 := by
  refine ⟨⟨?_, ?_, ?_, trivial⟩, ?_⟩
  · unfold Early; decide +kernel
  · unfold Early; decide +kernel
  · unfold Early; decide +kernel
  · decide +kernel

/-- An evaluation after a failed one that reports BASIC, because too many atoms differ, and is right although the history has a taint. -/
example : (evalSt exCalc (runOps exCalc (init 5 [] 0 1) [.setType .optimized, .eval struA, .evalFail struB 3]) []).used = .basic ∧
    taintAfter exCalc (init 5 [] 0 1) false [.setType .optimized, .eval struA, .evalFail struB 3] = true ∧
    taintAfter exCalc (init 5 [] 0 1) false ([.setType .optimized, .eval struA, .evalFail struB 3] ++ [.eval []]) = false := by decide +kernel

/-- `setStructure` before the first evaluation leaves no taint. -/
example : taintAfter exCalc (init 5 [] 0 1) false [.setType .optimized, .setStructure struA, .evalFail struA 4, .eval struB, .eval struA] = false := by
  decide +kernel

end Verif.History
