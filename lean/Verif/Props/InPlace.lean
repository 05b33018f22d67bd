import Verif.Model.InPlace
import Verif.Props.History
set_option linter.unusedSectionVars false
/-!
C72: structure objects that are edited in place.  Model/History takes structures by value.  Here a program holds structure objects, edits
them between calls on the calculator and passes them, or lets `eval()` use the object set before.  The theorems say that this is the same
as passing the present content of the objects, so that all results about histories apply.
-/
namespace Verif.InPlace
open Verif.Eval Verif.Diff Verif.History

variable {C S B G : Type} [AddCommGroup G]

/-! ## Specification -/

/-- The calls of a program with the content that the structure objects have at the time of the call. -/
def snapshots (K : Calc C S B G) (live : Bool) : Sys C S G → List (Act C S) → List (Op C S)
  | _, [] => []
  | y, a :: as =>
    (match a with
      | .call op => [mapOp y.heap op]
      | .again => [.eval (y.heap y.ptr)]
      | .edit _ _ => []
      | .create _ => []) ++ snapshots K live (act K live y a) as

/-- The calculator as one that takes structures by value: the last structure is the content of its object. -/
def view (y : Sys C S G) : St C S G := { y.st with last := y.lastp.map y.heap }

/-- What `eval(a)` returns in the state `y`; `none` when the CHECK evaluator throws. -/
def resultOf (K : Calc C S B G) (live : Bool) (y : Sys C S G) (a : Nat) : Option G :=
  evalResult K { view y with cur := if live then y.heap y.ptr else y.st.cur } (y.heap a)

/-- Programs of evaluations, configuration changes that click the ticker, changes of the evaluator type, and edits. -/
def Plain : Act C S → Prop
  | .call (.eval _) => True
  | .call (.configure _ clicks) => clicks = true
  | .call (.setType _) => True
  | .call _ => False
  | .again => True
  | .edit _ _ => True
  | .create _ => True

/-! ## Objects -/

/-- Invariant: the last structure of the evaluator is an object that the program cannot edit. -/
structure Own (y : Sys C S G) : Prop where
  lt : ∀ a, y.owned a = true → a < y.next
  last : ∀ p, y.lastp = some p → p < y.next ∧ y.owned p = false

theorem own_init (c : C) (e : S) (i n : Int) : Own (initSys c e i n : Sys C S G) :=
  ⟨fun a h => by simp [initSys] at h, fun p h => by simp [initSys] at h⟩

theorem own_call (K : Calc C S B G) (live : Bool) (y : Sys C S G) (h : Own y) (op : Op C Nat) : Own (callSys K live y op) := by
  refine ⟨fun a ha => Nat.lt_succ_of_lt (h.lt a ha), ?_⟩
  intro p hp
  have hp' : p = y.next := by
    simp only [callSys, Option.map_eq_some_iff] at hp
    obtain ⟨_, _, h2⟩ := hp
    exact h2.symm
  subst hp'
  refine ⟨Nat.lt_succ_self _, ?_⟩
  change y.owned y.next = false
  by_contra hc
  exact absurd (h.lt y.next (by simpa using hc)) (Nat.lt_irrefl _)

theorem own_act (K : Calc C S B G) (live : Bool) (y : Sys C S G) (h : Own y) (a : Act C S) : Own (act K live y a) := by
  cases a with
  | call op => exact own_call K live y h op
  | again => exact own_call K live y h _
  | edit a f =>
    simp only [act]
    split
    · exact ⟨h.lt, h.last⟩
    · exact h
  | create s =>
    refine ⟨?_, ?_⟩
    · intro a ha
      simp only [act, Bool.or_eq_true, decide_eq_true_eq] at ha ⊢
      rcases ha with rfl | ha
      · omega
      · have := h.lt a ha; omega
    · intro p hp
      obtain ⟨h1, h2⟩ := h.last p hp
      refine ⟨Nat.lt_succ_of_lt h1, ?_⟩
      simp only [act, Bool.or_eq_false_iff, decide_eq_false_iff_not]
      exact ⟨by omega, h2⟩

theorem own_run (K : Calc C S B G) (live : Bool) (as : List (Act C S)) (y : Sys C S G) (h : Own y) :
    Own (runSys K live y as) := by
  induction as generalizing y with
  | nil => exact h
  | cons a as ih => exact ih _ (own_act K live y h a)

theorem heap_call (K : Calc C S B G) (live : Bool) (y : Sys C S G) (op : Op C Nat) (a : Nat) (ha : a < y.next) :
    (callSys K live y op).heap a = y.heap a := by
  unfold callSys
  dsimp only
  generalize (step K _ (mapOp y.heap op)).last = l
  cases l with
  | none => rfl
  | some s => exact if_neg (by omega)

/-- **C72**: calls on the calculator never change a structure object of the program, failed calls included. -/
theorem calls_leave_structures (K : Calc C S B G) (live : Bool) (c : C) (e : S) (i n : Int) (as : List (Act C S))
    (op : Op C Nat) (a : Nat) (ha : (runSys K live (initSys c e i n) as).owned a = true) :
    (act K live (runSys K live (initSys c e i n) as) (.call op)).heap a = (runSys K live (initSys c e i n) as).heap a :=
  heap_call K live _ op a ((own_run K live as _ (own_init (G := G) c e i n)).lt a ha)

/-! ## The structure object set before -/

/-- Elementary changes that keep the structure object. -/
def KeepCur (f : St C S G → St C S G) : Prop := ∀ st, (f st).cur = st.cur

/-- Elementary changes that keep the structure `stru` set. -/
def KeepStru (stru : S) (f : St C S G → St C S G) : Prop := ∀ st, st.cur = stru → (f st).cur = stru

theorem KeepCur.stru {f : St C S G → St C S G} (h : KeepCur f) (stru : S) : KeepStru stru f := fun st hs => (h st).trans hs

theorem exec_keepCur (p : Prog C S G) (h : ∀ f ∈ p, KeepCur f) (st : St C S G) : (exec p st).cur = st.cur := by
  induction p generalizing st with
  | nil => rfl
  | cons f p ih => rw [exec_cons, ih (fun g hg => h g (by simp [hg])), h f (by simp)]

theorem exec_keepStru (stru : S) (p : Prog C S G) (h : ∀ f ∈ p, KeepStru stru f) (st : St C S G) (hs : st.cur = stru) :
    (exec p st).cur = stru := by
  induction p generalizing st with
  | nil => exact hs
  | cons f p ih => rw [exec_cons]; exact ih (fun g hg => h g (by simp [hg])) _ (h f (by simp) st hs)

/-- A program that sets the structure at one place. -/
theorem exec_split (K : Calc C S B G) (stru : S) (pre post : Prog C S G) (h1 : ∀ f ∈ pre, KeepCur f)
    (h2 : ∀ f ∈ post, KeepStru stru f) (k : Nat) (st : St C S G) :
    (exec ((pre ++ setStru K stru :: post).take k) st).cur = if pre.length + 1 ≤ k then stru else st.cur := by
  split
  · rename_i hk
    obtain ⟨j, rfl⟩ : ∃ j, k = pre.length + (j + 1) := ⟨k - pre.length - 1, by omega⟩
    rw [List.take_append, List.take_of_length_le (by omega), exec_append]
    have : pre.length + (j + 1) - pre.length = j + 1 := by omega
    rw [this, List.take_succ_cons, exec_cons]
    exact exec_keepStru stru _ (fun f hf => h2 f (List.mem_of_mem_take hf)) _ (setStru_cur _ _ _)
  · rename_i hk
    rw [List.take_append_of_le_length (by omega)]
    exact exec_keepCur _ (fun f hf => h1 f (List.mem_of_mem_take hf)) st

theorem keep_setUsed (t : EvType) : KeepCur (setUsed t : St C S G → _) := fun _ => rfl
theorem keep_clickVal : KeepCur (clickVal : St C S G → _) := fun _ => rfl
theorem keep_addC (K : Calc C S B G) (t : Contrib B) : KeepCur (addC K t : St C S G → _) := fun _ => rfl
theorem keep_stash : KeepCur (doStash : St C S G → _) := fun _ => rfl
theorem keep_restore : KeepCur (doRestore : St C S G → _) := fun _ => rfl
theorem keep_save : KeepCur (doSave : St C S G → _) := fun _ => rfl
theorem keep_setLast : KeepCur (setLast : St C S G → _) := fun _ => rfl
theorem keep_setStru (K : Calc C S B G) (stru : S) : KeepStru stru (setStru K stru : St C S G → _) :=
  fun _ _ => setStru_cur _ _ _

theorem basic_post (K : Calc C S B G) (c : C) (cpu ncpu : Int) (stru : S) :
    ∀ f ∈ (basicProg K c cpu ncpu stru : Prog C S G), KeepStru stru f := by
  intro f hf
  simp only [basicProg, List.mem_append, List.mem_cons, List.mem_map, List.not_mem_nil, or_false] at hf
  rcases hf with ((rfl | rfl) | ⟨t, _, rfl⟩) | rfl
  · exact (keep_setUsed _).stru _
  · exact keep_setStru _ _
  · exact (keep_addC _ _).stru _
  · exact keep_clickVal.stru _

theorem complete_post (K : Calc C S B G) (c : C) (cpu ncpu : Int) (stru : S) :
    ∀ f ∈ (completeProg K c cpu ncpu stru : Prog C S G), KeepStru stru f := by
  intro f hf
  simp only [completeProg, List.mem_append, List.mem_cons, List.not_mem_nil, or_false] at hf
  rcases hf with hf | rfl
  · exact basic_post K c cpu ncpu stru f hf
  · exact keep_setLast.stru _

/-- The program of an OPTIMIZED evaluation splits at the first `setStructure`. -/
theorem opt_split (K : Calc C S B G) (st : St C S G) (stru : S) :
    ∃ pre post : Prog C S G, optProg K st stru = pre ++ setStru K stru :: post ∧
      (∀ f ∈ pre, KeepCur f) ∧ (∀ f ∈ post, KeepStru stru f) ∧
      pre.length + 1 = fastPos K st stru := by
  unfold optProg fastPos
  cases hf : fastChoice K st stru with
  | none =>
    refine ⟨[setUsed .optimized, setUsed .basic], ?_⟩
    refine ⟨_, rfl, ?_, ?_, rfl⟩
    · intro f hf
      simp only [List.mem_cons, List.not_mem_nil, or_false] at hf
      rcases hf with rfl | rfl <;> exact keep_setUsed _
    · intro f hf
      apply complete_post K st.cfg st.cpuindex st.ncpu stru f
      exact List.mem_cons_of_mem _ (List.mem_cons_of_mem _ hf)
  | some p =>
    obtain ⟨s0, d⟩ := p
    dsimp only
    unfold fastProg
    dsimp only
    have hpost : ∀ f ∈ (if (setStru K stru st).pqTick ≥ st.valTick then
          completeProg K (K.custom stru st.cfg).1 st.cpuindex st.ncpu stru
        else [doRestore] ++
          (addTrace (K.gen (K.custom stru st.cfg).1 stru) K.fullSum (K.use (K.custom stru st.cfg).1 stru) (K.count stru)
            d.add1 (removeTrace (K.gen st.cfg s0) K.fullSum (K.use st.cfg st.cur) (K.count s0) d.pop0
              st.cpuindex st.ncpu).1 st.ncpu).map (addC K) ++ [setLast, clickVal] : Prog C S G), KeepStru stru f := by
      intro f hf
      split at hf
      · exact complete_post K _ _ _ stru f hf
      · simp only [List.mem_append, List.mem_cons, List.mem_map, List.not_mem_nil, or_false] at hf
        rcases hf with (rfl | ⟨t, _, rfl⟩) | rfl | rfl
        · exact keep_restore.stru _
        · exact (keep_addC _ _).stru _
        · exact keep_setLast.stru _
        · exact keep_clickVal.stru _
    refine ⟨setUsed .optimized :: ((removeTrace (K.gen st.cfg s0) K.fullSum (K.use st.cfg st.cur) (K.count s0) d.pop0
      st.cpuindex st.ncpu).2.map (addC K) ++ [doStash]), _, ?_, ?_, hpost, ?_⟩
    · simp only [List.append_assoc, List.cons_append, List.nil_append]
    · intro f hf
      simp only [List.mem_cons, List.mem_append, List.mem_map, List.not_mem_nil, or_false] at hf
      rcases hf with rfl | ⟨t, _, rfl⟩ | rfl
      · exact keep_setUsed _
      · exact keep_addC _ _
      · exact keep_stash
    · simp

/-- The structure set after `k` elementary changes of an evaluation. -/
theorem evalPrefix_cur (K : Calc C S B G) (st : St C S G) (stru : S) (k : Nat) :
    (exec ((evalProg K st stru).take k) st).cur = if struPos K st stru ≤ k then stru else st.cur := by
  obtain ⟨pre, post, e, h1, h2, h3⟩ := opt_split K st stru
  unfold evalProg struPos
  cases hev : st.evtype with
  | none =>
    simp only [reduceCtorEq, or_self, if_false]
    exact exec_split K stru [setUsed .basic] _ (fun f hf => by
      simp only [List.mem_cons, List.not_mem_nil, or_false] at hf; subst hf; exact keep_setUsed _)
      (fun f hf => basic_post K st.cfg st.cpuindex st.ncpu stru f
        (List.mem_cons_of_mem _ (List.mem_cons_of_mem _ hf))) k st
  | basic =>
    simp only [reduceCtorEq, or_self, if_false]
    exact exec_split K stru [setUsed .basic] _ (fun f hf => by
      simp only [List.mem_cons, List.not_mem_nil, or_false] at hf; subst hf; exact keep_setUsed _)
      (fun f hf => basic_post K st.cfg st.cpuindex st.ncpu stru f
        (List.mem_cons_of_mem _ (List.mem_cons_of_mem _ hf))) k st
  | optimized =>
    simp only [true_or, if_true]
    rw [e, exec_split K stru pre post h1 h2, h3]
  | check =>
    simp only [or_true, if_true]
    unfold checkProg
    dsimp only
    rw [e, List.append_assoc, List.cons_append]
    rw [exec_split K stru pre _ h1, h3]
    intro f hf
    rw [List.mem_append] at hf
    rcases hf with hf | hf
    · exact h2 f hf
    · split at hf
      · simp at hf
      · simp only [List.mem_append, List.mem_cons, List.not_mem_nil, or_false] at hf
        rcases hf with (rfl | hf) | rfl
        · exact keep_save.stru _
        · exact basic_post K _ _ _ stru f hf
        · exact (keep_setUsed _).stru _

theorem eval_length (K : Calc C S B G) (st : St C S G) (stru : S) : struPos K st stru ≤ (evalProg K st stru).length := by
  obtain ⟨pre, post, e, h1, h2, h3⟩ := opt_split K st stru
  unfold evalProg struPos
  cases hev : st.evtype with
  | none => simp [basicProg]
  | basic => simp [basicProg]
  | optimized =>
    simp only [true_or, if_true]
    rw [e, ← h3]; simp
  | check =>
    simp only [or_true, if_true]
    unfold checkProg
    dsimp only
    rw [e, ← h3]; simp

/-- **C72**: `getStructure` and the structure that masks and caches are built for stay together: after any call, completed or failed at
any point, the object that `eval()` will use is either the one passed to the call, and the calculator is set up for the content that
object had, or the same as before, and so is the calculator. -/
theorem current_structure (K : Calc C S B G) (y : Sys C S G) (op : Op C Nat) :
    ((callSys K false y op).ptr = y.ptr ∧ (callSys K false y op).st.cur = y.st.cur) ∨
    (∃ a k, (op = .eval a ∨ op = .evalFail a k ∨ op = .setStructure a) ∧ (callSys K false y op).ptr = a ∧
      (callSys K false y op).st.cur = y.heap a) := by
  unfold callSys
  simp only [Bool.false_eq_true, if_false]
  cases op with
  | eval a =>
    right
    refine ⟨a, 0, Or.inl rfl, rfl, ?_⟩
    have := evalPrefix_cur K { y.st with last := y.lastp.map y.heap } (y.heap a)
      (evalProg K { y.st with last := y.lastp.map y.heap } (y.heap a)).length
    rw [List.take_length, if_pos (eval_length _ _ _)] at this
    exact this
  | evalFail a k =>
    have := evalPrefix_cur K { y.st with last := y.lastp.map y.heap } (y.heap a) k
    by_cases hk : struPos K { y.st with last := y.lastp.map y.heap } (y.heap a) ≤ k
    · right
      rw [if_pos hk] at this
      exact ⟨a, k, Or.inr (Or.inl rfl), if_pos hk, this⟩
    · left
      rw [if_neg hk] at this
      exact ⟨if_neg hk, this⟩
  | setStructure a => exact Or.inr ⟨a, 0, Or.inr (Or.inr rfl), rfl, setStru_cur _ _ _⟩
  | configure f clicks =>
    left; refine ⟨rfl, ?_⟩
    cases clicks <;> rfl
  | setType t =>
    left; refine ⟨rfl, ?_⟩
    simp only [mapOp, step, setTypeSt]
    split_ifs <;> rfl
  | setupParallel i n =>
    left; refine ⟨rfl, ?_⟩
    simp only [mapOp, step]
    split_ifs <;> rfl

/-! ## Objects against values -/

/-- The state in which a call runs. -/
def seen (live : Bool) (y : Sys C S G) : St C S G := { view y with cur := if live then y.heap y.ptr else y.st.cur }

theorem view_callL (K : Calc C S B G) (live : Bool) (y : Sys C S G) (op : Op C Nat) :
    view (callSys K live y op) = step K (seen live y) (mapOp y.heap op) := by
  unfold seen view callSys
  dsimp only
  generalize step K _ (mapOp y.heap op) = st1
  obtain ⟨a1, a2, a3, last, a5, a6, a7, a8, a9, b1, b2, b3, b4⟩ := st1
  cases last with
  | none => rfl
  | some s => simp

theorem seen_false (y : Sys C S G) : seen false y = view y := rfl

theorem view_call (K : Calc C S B G) (y : Sys C S G) (op : Op C Nat) :
    view (callSys K false y op) = step K (view y) (mapOp y.heap op) := by
  rw [view_callL, seen_false]

theorem view_edit (y : Sys C S G) (h : Own y) (a : Nat) (f : S → S) (ha : y.owned a = true) :
    view { y with heap := fun b => if b = a then f (y.heap a) else y.heap b } = view y := by
  unfold view
  cases hl : y.lastp with
  | none => rfl
  | some p =>
    have : p ≠ a := by
      rintro rfl
      rw [(h.last p hl).2] at ha
      exact absurd ha (by simp)
    simp [this]

theorem view_create (y : Sys C S G) (h : Own y) (s : S) :
    view { y with
      heap := fun b => if b = y.next then s else y.heap b,
      owned := fun b => b = y.next || y.owned b,
      next := y.next + 1 } = view y := by
  unfold view
  cases hl : y.lastp with
  | none => rfl
  | some p =>
    have : p ≠ y.next := by have := (h.last p hl).1; omega
    simp [this]

/-- **C72**, refinement: for calculators that keep what they need of the structure, a program that edits structure objects between the
calls has the same effect on the calculator as passing snapshots of the objects by value. -/
theorem refines_values (K : Calc C S B G) (as : List (Act C S)) (y : Sys C S G) (h : Own y) :
    view (runSys K false y as) = runOps K (view y) (snapshots K false y as) := by
  induction as generalizing y with
  | nil => rfl
  | cons a as ih =>
    change view (runSys K false (act K false y a) as) = _
    rw [ih _ (own_act K false y h a)]
    simp only [snapshots]
    cases a with
    | call op =>
      simp only [List.singleton_append]
      change _ = runOps K (step K (view y) (mapOp y.heap op)) _
      rw [← view_call]; rfl
    | again =>
      simp only [List.singleton_append]
      change _ = runOps K (step K (view y) (mapOp y.heap (.eval y.ptr))) _
      rw [← view_call]; rfl
    | edit a f =>
      simp only [List.nil_append]
      congr 1
      simp only [act]
      split
      · rename_i ha; exact view_edit y h a f ha
      · rfl
    | create s =>
      simp only [List.nil_append]
      congr 1
      exact view_create y h s

theorem view_init (c : C) (e : S) (i n : Int) : view (initSys c e i n : Sys C S G) = init c e i n := rfl

/-! ## C72 -/

/-- **C72** (partial): after any program of calls and edits that leaves no taint (see `History.taint`), evaluating the structure object
`a` returns the BASIC value of the content that `a` has now.  Missing from the full property: programs with a taint (C12, C13). -/
theorem edits_noticed_partial (K : Calc C S B G) (hK : Lawful K) (c : C) (e : S) (as : List (Act C S))
    (ha : ∀ op ∈ snapshots K false (initSys c e 0 1) as, Allowed 1 op)
    (ht : taintAfter K (init c e 0 1) false (snapshots K false (initSys c e 0 1) as) = false) (a : Nat) :
    resultOf K false (runSys K false (initSys c e 0 1) as) a
      = some (basicValue K (act K false (runSys K false (initSys c e 0 1) as) (.call (.eval a))).st.cfg
          ((runSys K false (initSys c e 0 1) as).heap a)) := by
  have h := refines_values K as _ (own_init (G := G) c e 0 1)
  rw [view_init] at h
  have hr := history_result_partial K hK c e _ ha ht ((runSys K false (initSys c e 0 1) as).heap a)
  rw [← h] at hr
  have hcfg : (act K false (runSys K false (initSys c e 0 1) as) (.call (.eval a))).st.cfg
      = (evalSt K (view (runSys K false (initSys c e 0 1) as)) ((runSys K false (initSys c e 0 1) as).heap a)).cfg := by
    change (view (callSys K false (runSys K false (initSys c e 0 1) as) (.eval a))).cfg = _
    rw [view_call]; rfl
  rw [hcfg]
  exact hr

theorem plain_snapshots (K : Calc C S B G) (live : Bool) (as : List (Act C S)) (hp : ∀ x ∈ as, Plain x) (y : Sys C S G) :
    (∀ op ∈ snapshots K live y as, Allowed 1 op) ∧
      ∀ st : St C S G, taintAfter K st false (snapshots K live y as) = false := by
  induction as generalizing y with
  | nil => exact ⟨fun op h => by simp [snapshots] at h, fun st => rfl⟩
  | cons x as ih =>
    obtain ⟨h1, h2⟩ := ih (fun z hz => hp z (by simp [hz])) (act K live y x)
    have hx := hp x (by simp)
    simp only [snapshots]
    cases x with
    | call op =>
      cases op with
      | eval a =>
        refine ⟨?_, fun st => h2 _⟩
        intro op hop
        simp only [List.singleton_append, List.mem_cons] at hop
        rcases hop with rfl | hop
        · trivial
        · exact h1 op hop
      | configure f clicks =>
        simp only [Plain] at hx
        subst hx
        refine ⟨?_, fun st => h2 _⟩
        intro op hop
        simp only [List.singleton_append, List.mem_cons] at hop
        rcases hop with rfl | hop
        · intro h; exact absurd h (by simp)
        · exact h1 op hop
      | setType t =>
        refine ⟨?_, fun st => ?_⟩
        · intro op hop
          simp only [List.singleton_append, List.mem_cons] at hop
          rcases hop with rfl | hop
          · trivial
          · exact h1 op hop
        · simp only [List.singleton_append, taintAfter, taint, Bool.false_and, mapOp]
          exact h2 _
      | evalFail a k => exact absurd hx id
      | setStructure a => exact absurd hx id
      | setupParallel i n => exact absurd hx id
    | again =>
      refine ⟨?_, fun st => h2 _⟩
      intro op hop
      simp only [List.singleton_append, List.mem_cons] at hop
      rcases hop with rfl | hop
      · trivial
      · exact h1 op hop
    | edit a f => exact ⟨h1, h2⟩
    | create s => exact ⟨h1, h2⟩

/-- **C72**: after any sequence of evaluations, configuration changes that click the ticker, evaluator changes, and edits of structure
objects, evaluating the object `a` returns the BASIC value of the content that `a` has now, with any evaluator. -/
theorem edits_noticed (K : Calc C S B G) (hK : Lawful K) (c : C) (e : S) (as : List (Act C S)) (hp : ∀ x ∈ as, Plain x) (a : Nat) :
    resultOf K false (runSys K false (initSys c e 0 1) as) a
      = some (basicValue K (act K false (runSys K false (initSys c e 0 1) as) (.call (.eval a))).st.cfg
          ((runSys K false (initSys c e 0 1) as).heap a)) := by
  obtain ⟨h1, h2⟩ := plain_snapshots K false as hp (initSys c e 0 1)
  exact edits_noticed_partial K hK c e as h1 (h2 _) a

/-! ## Calculators that read the structure object while they add contributions -/

/-- Invariant of a calculator that stays BASIC and serial. -/
structure Base (y : Sys C S G) : Prop where
  own : Own y
  bnd : Bnd (view y)
  ev : y.st.evtype = .basic
  cpu : y.st.cpuindex = 0
  ncpu : y.st.ncpu = 1

theorem base_of_view (y z : Sys C S G) (h : Base y) (hz : Own z) (e : view z = view y) : Base z := by
  refine ⟨hz, e ▸ h.bnd, ?_, ?_, ?_⟩
  · have := congrArg St.evtype e; exact this.trans h.ev
  · have := congrArg St.cpuindex e; exact this.trans h.cpu
  · have := congrArg St.ncpu e; exact this.trans h.ncpu

theorem base_call (K : Calc C S B G) (hs : K.canStash = false) (live : Bool) (y : Sys C S G) (h : Base y) (op : Op C Nat)
    (hop : ∀ i n, op ≠ .setupParallel i n) : Base (callSys K live y op) := by
  have hb : Bnd (seen live y) := ⟨h.bnd.pq, h.bnd.val, h.bnd.last⟩
  have he : (seen live y).evtype = .basic := h.ev
  have key : Bnd (step K (seen live y) (mapOp y.heap op)) ∧ (step K (seen live y) (mapOp y.heap op)).evtype = .basic ∧
      (step K (seen live y) (mapOp y.heap op)).cpuindex = 0 ∧ (step K (seen live y) (mapOp y.heap op)).ncpu = 1 := by
    cases op with
    | eval a =>
      have := eval_keeps K (seen live y) (y.heap a) hb
      exact ⟨this.1, this.2.1.trans he, this.2.2.1.trans h.cpu, this.2.2.2.trans h.ncpu⟩
    | evalFail a k =>
      have := evalPrefix_keeps K (seen live y) (y.heap a) hb ((evalProg K (seen live y) (y.heap a)).take k)
        (fun f hf => List.mem_of_mem_take hf)
      exact ⟨this.1, this.2.1.trans he, this.2.2.1.trans h.cpu, this.2.2.2.trans h.ncpu⟩
    | setStructure a =>
      have := keeps_setStru K (y.heap a) (seen live y) hb
      exact ⟨this.1, this.2.1.trans he, this.2.2.1.trans h.cpu, this.2.2.2.trans h.ncpu⟩
    | configure f clicks =>
      cases clicks
      · exact ⟨⟨hb.pq, hb.val, hb.last⟩, he, h.cpu, h.ncpu⟩
      · exact ⟨⟨Nat.le_refl _, Nat.le_succ_of_le hb.val, hb.last⟩, he, h.cpu, h.ncpu⟩
    | setType t =>
      have : setTypeSt K t (seen live y) = seen live y := by
        unfold setTypeSt
        rw [he]
        by_cases ht : EvType.basic = t
        · rw [if_pos ht]
        · rw [if_neg ht, if_pos (⟨fun hh => ht hh.symm, hs⟩ : t ≠ .basic ∧ K.canStash = false), ite_self]
      simp only [mapOp, step]
      rw [this]
      exact ⟨hb, he, h.cpu, h.ncpu⟩
    | setupParallel i n => exact absurd rfl (hop i n)
  rw [← view_callL] at key
  exact ⟨own_call K live y h.own op, key.1, key.2.1, key.2.2.1, key.2.2.2⟩

theorem base_act (K : Calc C S B G) (hs : K.canStash = false) (live : Bool) (y : Sys C S G) (h : Base y) (x : Act C S)
    (hx : ∀ i n, x ≠ .call (.setupParallel i n)) : Base (act K live y x) := by
  cases x with
  | call op => exact base_call K hs live y h op fun i n hh => hx i n (by rw [hh])
  | again => exact base_call K hs live y h _ fun i n hh => by cases hh
  | edit a f =>
    simp only [act]
    split
    · rename_i ha
      exact base_of_view y _ h ⟨h.own.lt, h.own.last⟩ (view_edit y h.own a f ha)
    · exact h
  | create s => exact base_of_view y _ h (own_act K live y h.own (.create s)) (view_create y h.own s)

theorem base_run (K : Calc C S B G) (hs : K.canStash = false) (live : Bool) (as : List (Act C S)) (y : Sys C S G) (h : Base y)
    (hx : ∀ x ∈ as, ∀ i n, x ≠ .call (.setupParallel i n)) : Base (runSys K live y as) := by
  induction as generalizing y with
  | nil => exact h
  | cons x as ih =>
    exact ih _ (base_act K hs live y h x (hx x (by simp))) fun z hz => hx z (by simp [hz])

/-- **C72** for classes without fast updates (BVSCalculator), which read occupancies through the structure object: after any program of
calls (failed ones and `setStructure` included, without `setupParallelRun`) and edits, evaluating the object `a` returns the BASIC value
of the content that `a` has now. -/
theorem live_edits_noticed (K : Calc C S B G) (hs : K.canStash = false) (live : Bool) (c : C) (e : S) (as : List (Act C S))
    (hx : ∀ x ∈ as, ∀ i n, x ≠ .call (.setupParallel i n)) (a : Nat) :
    resultOf K live (runSys K live (initSys c e 0 1) as) a
      = some (basicValue K (act K live (runSys K live (initSys c e 0 1) as) (.call (.eval a))).st.cfg
          ((runSys K live (initSys c e 0 1) as).heap a)) := by
  have hb := base_run K hs live as (initSys c e 0 1)
    ⟨own_init (G := G) c e 0 1, ⟨Nat.le_refl _, Nat.le_refl _, fun _ _ => rfl⟩, rfl, rfl, rfl⟩ hx
  generalize runSys K live (initSys c e 0 1) as = y at hb ⊢
  have he : evalSt K (seen live y) (y.heap a) = basicFinal K 0 1 (y.heap a) (seen live y) := by
    rw [evalSt_eq]
    have h1 : (seen live y).evtype = .basic := hb.ev
    have h2 : (seen live y).cpuindex = 0 := hb.cpu
    have h3 : (seen live y).ncpu = 1 := hb.ncpu
    rw [h1, h2, h3]
  have hcfg : (act K live y (.call (.eval a))).st.cfg = (K.custom (y.heap a) (seen live y).cfg).1 := by
    change (view (callSys K live y (.eval a))).cfg = _
    rw [view_callL]
    change (evalSt K (seen live y) (y.heap a)).cfg = _
    rw [he, basicFinal_cfg]
  unfold resultOf evalResult
  change (if (seen live y).evtype = .check ∧ (evalSt K (seen live y) (y.heap a)).used = .check ∧
    K.close (evalSt K (seen live y) (y.heap a)).saved (evalSt K (seen live y) (y.heap a)).value = false then none
    else some (evalSt K (seen live y) (y.heap a)).value) = _
  rw [if_neg (by
    rintro ⟨h1, _⟩
    have h2 : (seen live y).evtype = .basic := hb.ev
    rw [h2] at h1; cases h1), he, basicFinal_value, hcfg]
  have := bval_sum K (K.custom (y.heap a) (seen live y).cfg).1 (y.heap a) 1 (le_refl _)
  simp only [Finset.range_one, Finset.sum_singleton, Nat.cast_zero, Nat.cast_one] at this
  rw [this]

/-! ## Examples -/

/-- Replace an atom of a structure. -/
def setAtom (k : Nat) (b : Atom) (s : List Atom) : List Atom := s.set k b

/-- An OPTIMIZED calculator, a structure that is edited between evaluations, and a second one. -/
def exProg : List (Act Rat (List Atom)) :=
  [.call (.setType .optimized), .create struA, .call (.eval 2), .edit 2 (setAtom 1 (exAtom "C" 9)), .again,
    .call (.configure (fun _ => 5) true), .again, .edit 2 (setAtom 3 (exAtom "C" 20))]

example : (∀ x ∈ exProg, Plain x) := by
  intro x h
  simp only [exProg, List.mem_cons, List.not_mem_nil, or_false] at h
  rcases h with rfl | rfl | rfl | rfl | rfl | rfl | rfl | rfl <;> simp [Plain]

/-- The evaluation of the edited object is a fast update and gives the value of its present content. -/
example : resultOf exCalc false (runSys exCalc false (initSys 5 [] 0 1) exProg) 2 = some 2 ∧
    (act exCalc false (runSys exCalc false (initSys 5 [] 0 1) exProg) .again).st.used = .optimized ∧
    (runSys exCalc false (initSys 5 [] 0 1) exProg).owned 2 = true ∧
    basicValue exCalc 5 [exAtom "C" 0, exAtom "C" 9, exAtom "C" 2, exAtom "C" 20] = 2 := by decide +kernel

/-- A calculator whose contributions are products of the occupancies that are read in the structure object. -/
def occCalc (stash : Bool) : Calc Rat (List Atom) Unit Rat where
  fullSum := false
  fixedIdx := false
  canStash := stash
  hasPairMask _ := false
  rule := chopOuterRule
  count a := a.length
  gen c a i sel := sel.flatMap fun j => (exBonds c i j a[i]? a[j]?).map fun b => (j, b)
  use _ _ _ _ := true
  con _ a i j _ := ((a[i]?).elim 0 Atom.occupancy) * ((a[j]?).elim 0 Atom.occupancy)
  custom _ c := (c, false)
  diff := atomicDiff exSorter false true
  close x y := decide (x = y)

/-- Half of the occupancy. -/
def half (s : List Atom) : List Atom := s.map fun a => { a with occupancy := a.occupancy / 2 }

/-- Reading through the structure object is correct only because these classes have no fast updates: with them, contributions would be
removed with the occupancies after the edit. -/
theorem live_optimized_bug :
    resultOf (occCalc true) true (runSys (occCalc true) true (initSys 5 [] 0 1)
      [.call (.setType .optimized), .create struA, .call (.eval 2), .edit 2 (fun s => s.modify 0 fun a => { a with occupancy := 1 / 2 })]) 2
      ≠ some (basicValue (occCalc true) 5 (struA.modify 0 fun a => { a with occupancy := 1 / 2 })) := by decide +kernel

example : resultOf (occCalc false) true (runSys (occCalc false) true (initSys 5 [] 0 1)
    [.call (.setType .optimized), .create struA, .call (.eval 2), .edit 2 half]) 2 = some 3 ∧
    basicValue (occCalc false) 5 struA = 12 := by decide +kernel

end Verif.InPlace
