import Verif.Model.Copies
import Verif.Props.History
import Mathlib.Tactic.Basic
import Mathlib.Tactic.Cases
/-
C64: copies of a calculator are independent.
-/
set_option linter.unusedSectionVars false
namespace Verif.Copies
open Verif.Eval Verif.Diff Verif.History
variable {C S B G : Type} [AddCommGroup G]

/-! ### Specification -/

/-- The calls made on calculator `a`. -/
def callsOn (a : Nat) : List (SOp C S) → List (Op C S)
  | [] => []
  | .on b op :: ops => if b = a then op :: callsOn a ops else callsOn a ops
  | .copy _ _ :: ops => callsOn a ops

/-- No copy is made of `a` or into `a`. -/
def NoCopy (a : Nat) : SOp C S → Prop
  | .on _ _ => True
  | .copy src dst => src ≠ a ∧ dst ≠ a

/-- The call does not concern `a`: it is made on another calculator, or copies (perhaps `a`) into another one. -/
def Elsewhere (a : Nat) : SOp C S → Prop
  | .on b _ => b ≠ a
  | .copy _ dst => dst ≠ a

/-- The call is not `setupParallelRun`. -/
def NotParallel : SOp C S → Prop
  | .on _ (.setupParallel _ _) => False
  | _ => True

/-- Evaluators in use exist, and tickers are not ahead of the click counter. -/
structure Sound (s : Sys C S G) : Prop where
  ptr : ∀ a, (s.calcs a).ev < s.nevs
  pq : ∀ a, (s.calcs a).pqTick ≤ s.clock
  val : ∀ i, (s.evs i).valTick ≤ s.clock

/-- No other calculator holds the evaluator of `a`. -/
def Exclusive (s : Sys C S G) (a : Nat) : Prop := ∀ b, b ≠ a → (s.calcs b).ev ≠ (s.calcs a).ev

/-! ### States that differ in ticker numbers only -/

/-- Same members, same order of the tickers. -/
structure Sim (x y : St C S G) : Prop where
  last : x.last = y.last
  cur : x.cur = y.cur
  cfg : x.cfg = y.cfg
  value : x.value = y.value
  stash : x.stash = y.stash
  saved : x.saved = y.saved
  evtype : x.evtype = y.evtype
  used : x.used = y.used
  cpuindex : x.cpuindex = y.cpuindex
  ncpu : x.ncpu = y.ncpu
  ord : x.valTick ≤ x.pqTick ↔ y.valTick ≤ y.pqTick
  bx : x.pqTick ≤ x.clock ∧ x.valTick ≤ x.clock
  by_ : y.pqTick ≤ y.clock ∧ y.valTick ≤ y.clock

/-- An elementary state change that respects `Sim`. -/
def Resp (f : St C S G → St C S G) : Prop := ∀ x y, Sim x y → Sim (f x) (f y)

theorem resp_clickPq : Resp (clickPq : St C S G → St C S G) := by
  intro x y h
  obtain ⟨h1, h2, h3, h4, h5, h6, h7, h8, h9, h10, h11, ⟨a1, a2⟩, b1, b2⟩ := h
  exact ⟨h1, h2, h3, h4, h5, h6, h7, h8, h9, h10, by simp only [clickPq]; omega, by simp only [clickPq]; omega,
    by simp only [clickPq]; omega⟩

theorem resp_clickVal : Resp (clickVal : St C S G → St C S G) := by
  intro x y h
  obtain ⟨h1, h2, h3, h4, h5, h6, h7, h8, h9, h10, h11, ⟨a1, a2⟩, b1, b2⟩ := h
  exact ⟨h1, h2, h3, h4, h5, h6, h7, h8, h9, h10, by simp only [clickVal]; omega, by simp only [clickVal]; omega,
    by simp only [clickVal]; omega⟩

theorem resp_setStru (K : Calc C S B G) (stru : S) : Resp (setStru K stru) := by
  intro x y h
  obtain ⟨h1, h2, h3, h4, h5, h6, h7, h8, h9, h10, h11, b, b'⟩ := h
  unfold setStru
  rw [h3]
  have hs : Sim { x with cur := stru, cfg := (K.custom stru y.cfg).1, value := 0 }
      { y with cur := stru, cfg := (K.custom stru y.cfg).1, value := 0 } :=
    ⟨h1, rfl, rfl, rfl, h5, h6, h7, h8, h9, h10, h11, b, b'⟩
  dsimp only
  split
  · exact resp_clickPq _ _ hs
  · exact hs

theorem resp_addC (K : Calc C S B G) (t : Contrib B) : Resp (addC K t) := by
  intro x y h
  obtain ⟨h1, h2, h3, h4, h5, h6, h7, h8, h9, h10, h11, b, b'⟩ := h
  exact ⟨h1, h2, h3, by simp only [addC]; rw [h2, h3, h4], h5, h6, h7, h8, h9, h10, h11, b, b'⟩

theorem resp_setLast : Resp (setLast : St C S G → St C S G) := by
  intro x y h
  obtain ⟨h1, h2, h3, h4, h5, h6, h7, h8, h9, h10, h11, b, b'⟩ := h
  exact ⟨by simp only [setLast]; rw [h2], h2, h3, h4, h5, h6, h7, h8, h9, h10, h11, b, b'⟩

theorem resp_setUsed (t : EvType) : Resp (setUsed t : St C S G → St C S G) := by
  intro x y h
  obtain ⟨h1, h2, h3, h4, h5, h6, h7, h8, h9, h10, h11, b, b'⟩ := h
  exact ⟨h1, h2, h3, h4, h5, h6, h7, rfl, h9, h10, h11, b, b'⟩

theorem resp_doStash : Resp (doStash : St C S G → St C S G) := by
  intro x y h
  obtain ⟨h1, h2, h3, h4, h5, h6, h7, h8, h9, h10, h11, b, b'⟩ := h
  exact ⟨h1, h2, h3, h4, h4, h6, h7, h8, h9, h10, h11, b, b'⟩

theorem resp_doRestore : Resp (doRestore : St C S G → St C S G) := by
  intro x y h
  obtain ⟨h1, h2, h3, h4, h5, h6, h7, h8, h9, h10, h11, b, b'⟩ := h
  exact ⟨h1, h2, h3, h5, h5, h6, h7, h8, h9, h10, h11, b, b'⟩

theorem resp_doSave : Resp (doSave : St C S G → St C S G) := by
  intro x y h
  obtain ⟨h1, h2, h3, h4, h5, h6, h7, h8, h9, h10, h11, b, b'⟩ := h
  exact ⟨h1, h2, h3, h4, h5, h4, h7, h8, h9, h10, h11, b, b'⟩

theorem resp_exec (p : Prog C S G) (hp : ∀ f ∈ p, Resp f) : Resp (exec p) := by
  unfold exec
  induction p with
  | nil => intro x y h; exact h
  | cons f p ih =>
    intro x y h
    exact ih (fun g hg => hp g (List.mem_cons_of_mem _ hg)) _ _ (hp f (List.mem_cons_self ..) x y h)

theorem resp_basicProg (K : Calc C S B G) (c : C) (cpu ncpu : Int) (stru : S) : ∀ f ∈ basicProg K c cpu ncpu stru, Resp f := by
  intro f hf
  unfold basicProg at hf
  simp only [List.mem_append, List.mem_cons, List.not_mem_nil, or_false, List.mem_map] at hf
  rcases hf with ((rfl | rfl) | ⟨t, -, rfl⟩) | rfl
  · exact resp_setUsed _
  · exact resp_setStru K stru
  · exact resp_addC K t
  · exact resp_clickVal

theorem resp_completeProg (K : Calc C S B G) (c : C) (cpu ncpu : Int) (stru : S) :
    ∀ f ∈ completeProg K c cpu ncpu stru, Resp f := by
  intro f hf
  unfold completeProg at hf
  rcases List.mem_append.1 hf with hf | hf
  · exact resp_basicProg K c cpu ncpu stru f hf
  · rw [List.mem_singleton.1 hf]; exact resp_setLast

theorem resp_fastProg (K : Calc C S B G) (st : St C S G) (s0 stru : S) (d : SD) : ∀ f ∈ fastProg K st s0 stru d, Resp f := by
  intro f hf
  unfold fastProg at hf
  simp only [List.mem_append, List.mem_cons, List.not_mem_nil, or_false, List.mem_map] at hf
  rcases hf with (⟨t, -, rfl⟩ | rfl | rfl) | hf
  · exact resp_addC K t
  · exact resp_doStash
  · exact resp_setStru K stru
  · split at hf
    · exact resp_completeProg K _ _ _ stru f hf
    · simp only [List.mem_append, List.mem_cons, List.not_mem_nil, or_false, List.mem_map] at hf
      rcases hf with (rfl | ⟨t, -, rfl⟩) | rfl | rfl
      · exact resp_doRestore
      · exact resp_addC K t
      · exact resp_setLast
      · exact resp_clickVal

theorem resp_optProg (K : Calc C S B G) (st : St C S G) (stru : S) : ∀ f ∈ optProg K st stru, Resp f := by
  intro f hf
  unfold optProg at hf
  rcases List.mem_cons.1 hf with rfl | hf
  · exact resp_setUsed _
  · split at hf
    · exact resp_completeProg K _ _ _ stru f hf
    · exact resp_fastProg K st _ stru _ f hf

theorem resp_evalProg (K : Calc C S B G) (st : St C S G) (stru : S) : ∀ f ∈ evalProg K st stru, Resp f := by
  intro f hf
  unfold evalProg at hf
  split at hf
  · exact resp_optProg K st stru f hf
  · unfold checkProg at hf
    rcases List.mem_append.1 hf with hf | hf
    · exact resp_optProg K st stru f hf
    · split at hf
      · cases hf
      · simp only [List.mem_append, List.mem_singleton] at hf
        rcases hf with (rfl | hf) | rfl
        · exact resp_doSave
        · exact resp_basicProg K _ _ _ stru f hf
        · exact resp_setUsed _
  · exact resp_basicProg K _ _ _ stru f hf

theorem fastChoice_sim (K : Calc C S B G) (x y : St C S G) (h : Sim x y) (stru : S) : fastChoice K x stru = fastChoice K y stru := by
  unfold fastChoice
  rw [h.last, h.cfg]
  cases y.last with
  | none => rfl
  | some s0 =>
    dsimp only
    by_cases hx : x.pqTick ≥ x.valTick
    · rw [if_pos hx, if_pos (h.ord.1 hx)]
    · rw [if_neg hx, if_neg fun hy => hx (h.ord.2 hy)]

theorem valTick_setStru (K : Calc C S B G) (stru : S) (x : St C S G) : (setStru K stru x).valTick = x.valTick := by
  unfold setStru
  dsimp only
  split <;> rfl

theorem fastProg_sim (K : Calc C S B G) (x y : St C S G) (h : Sim x y) (s0 stru : S) (d : SD) :
    fastProg K x s0 stru d = fastProg K y s0 stru d := by
  have hs := (resp_setStru K stru x y h).ord
  rw [valTick_setStru, valTick_setStru] at hs
  unfold fastProg
  rw [h.cfg, h.cur, h.cpuindex, h.ncpu]
  dsimp only
  by_cases hx : (setStru K stru x).pqTick ≥ x.valTick
  · rw [if_pos hx, if_pos (hs.1 hx)]
  · rw [if_neg hx, if_neg fun hy => hx (hs.2 hy)]

theorem optProg_sim (K : Calc C S B G) (x y : St C S G) (h : Sim x y) (stru : S) : optProg K x stru = optProg K y stru := by
  unfold optProg
  rw [fastChoice_sim K x y h stru]
  cases fastChoice K y stru with
  | none => simp only [h.cfg, h.cpuindex, h.ncpu]
  | some p => dsimp only; rw [fastProg_sim K x y h]

theorem evalProg_sim (K : Calc C S B G) (x y : St C S G) (h : Sim x y) (stru : S) : evalProg K x stru = evalProg K y stru := by
  unfold evalProg
  rw [h.evtype]
  cases y.evtype with
  | none | basic => simp only [h.cfg, h.cpuindex, h.ncpu]
  | optimized => exact optProg_sim K x y h stru
  | check =>
    dsimp only
    unfold checkProg
    have hx := resp_exec _ (resp_optProg K y stru) x y h
    rw [optProg_sim K x y h stru]
    dsimp only
    rw [hx.used, hx.cfg, h.cpuindex, h.ncpu]

theorem evalSt_sim (K : Calc C S B G) (x y : St C S G) (h : Sim x y) (stru : S) : Sim (evalSt K x stru) (evalSt K y stru) := by
  unfold evalSt
  rw [evalProg_sim K x y h]
  exact resp_exec _ (resp_evalProg K y stru) x y h

theorem evalResult_sim (K : Calc C S B G) (x y : St C S G) (h : Sim x y) (stru : S) : evalResult K x stru = evalResult K y stru := by
  have he := evalSt_sim K x y h stru
  unfold evalResult
  dsimp only
  rw [he.used, he.saved, he.value, h.evtype]

theorem setType_sim (K : Calc C S B G) (x y : St C S G) (h : Sim x y) (t : EvType) : Sim (setTypeSt K t x) (setTypeSt K t y) := by
  unfold setTypeSt
  rw [h.evtype]
  split
  · exact h
  · split
    · exact h
    · split
      · exact h
      · obtain ⟨h1, h2, h3, h4, h5, h6, h7, h8, h9, h10, h11, b, b'⟩ := h
        exact ⟨rfl, h2, h3, rfl, h5, h6, rfl, h8, h9, h10, h11, b, b'⟩

theorem step_sim (K : Calc C S B G) (x y : St C S G) (h : Sim x y) (op : Op C S) : Sim (step K x op) (step K y op) := by
  cases op with
  | eval stru => exact evalSt_sim K x y h stru
  | evalFail stru k =>
    simp only [step]
    rw [evalProg_sim K x y h]
    exact resp_exec _ (fun f hf => resp_evalProg K y stru f (List.mem_of_mem_take hf)) x y h
  | setStructure stru => exact resp_setStru K stru x y h
  | configure f clicks =>
    obtain ⟨h1, h2, h3, h4, h5, h6, h7, h8, h9, h10, h11, b, b'⟩ := h
    have hs : Sim { x with cfg := f x.cfg } { y with cfg := f y.cfg } :=
      ⟨h1, h2, by simp only; rw [h3], h4, h5, h6, h7, h8, h9, h10, h11, b, b'⟩
    cases clicks
    · exact hs
    · exact resp_clickPq _ _ hs
  | setType t => exact setType_sim K x y h t
  | setupParallel cpu n =>
    simp only [step]
    split
    · exact h
    · obtain ⟨h1, h2, h3, h4, h5, h6, h7, h8, h9, h10, h11, b, b'⟩ := h
      exact ⟨h1, h2, h3, h4, h5, h6, h7, h8, rfl, rfl, h11, b, b'⟩

theorem sim_refl (x : St C S G) (h : x.pqTick ≤ x.clock ∧ x.valTick ≤ x.clock) : Sim x x :=
  ⟨rfl, rfl, rfl, rfl, rfl, rfl, rfl, rfl, rfl, rfl, Iff.rfl, h, h⟩

theorem step_bnd (K : Calc C S B G) (x : St C S G) (h : x.pqTick ≤ x.clock ∧ x.valTick ≤ x.clock) (op : Op C S) :
    (step K x op).pqTick ≤ (step K x op).clock ∧ (step K x op).valTick ≤ (step K x op).clock :=
  (step_sim K x x (sim_refl x h) op).bx

/-- The click counter never goes back. -/
theorem clock_exec (p : Prog C S G) (hp : ∀ f ∈ p, ∀ x, x.clock ≤ (f x).clock) (x : St C S G) : x.clock ≤ (exec p x).clock := by
  unfold exec
  induction p generalizing x with
  | nil => exact Nat.le_refl _
  | cons f p ih =>
    exact Nat.le_trans (hp f (List.mem_cons_self ..) x) (ih (fun g hg => hp g (List.mem_cons_of_mem _ hg)) (f x))

/-- The kinds of elementary changes. -/
theorem mono_of_kind (K : Calc C S B G) (f : St C S G → St C S G)
    (h : (∃ t, f = setUsed t) ∨ (∃ s, f = setStru K s) ∨ (∃ t, f = addC K t) ∨ f = clickVal ∨ f = setLast ∨ f = doStash ∨
      f = doRestore ∨ f = doSave) (x : St C S G) : x.clock ≤ (f x).clock := by
  rcases h with ⟨t, rfl⟩ | ⟨s, rfl⟩ | ⟨t, rfl⟩ | rfl | rfl | rfl | rfl | rfl
  · exact Nat.le_refl _
  · unfold setStru
    dsimp only
    split
    · exact Nat.le_succ _
    · exact Nat.le_refl _
  · exact Nat.le_refl _
  · exact Nat.le_succ _
  all_goals exact Nat.le_refl _

theorem basic_mono (K : Calc C S B G) (c : C) (cpu ncpu : Int) (stru : S) :
    ∀ f ∈ basicProg K c cpu ncpu stru, ∀ x : St C S G, x.clock ≤ (f x).clock := by
  intro f hf
  apply mono_of_kind K f
  unfold basicProg at hf
  simp only [List.mem_append, List.mem_cons, List.not_mem_nil, or_false, List.mem_map] at hf
  rcases hf with ((rfl | rfl) | ⟨t, -, rfl⟩) | rfl
  · exact Or.inl ⟨_, rfl⟩
  · exact Or.inr (Or.inl ⟨_, rfl⟩)
  · exact Or.inr (Or.inr (Or.inl ⟨_, rfl⟩))
  · exact Or.inr (Or.inr (Or.inr (Or.inl rfl)))

theorem opt_mono (K : Calc C S B G) (st : St C S G) (stru : S) :
    ∀ f ∈ optProg K st stru, ∀ x : St C S G, x.clock ≤ (f x).clock := by
  have hc : ∀ c cpu n, ∀ f ∈ completeProg K c cpu n stru, ∀ x : St C S G, x.clock ≤ (f x).clock := by
    intro c cpu n f hf
    rcases List.mem_append.1 hf with hf | hf
    · exact basic_mono K c cpu n stru f hf
    · exact mono_of_kind K f (by rw [List.mem_singleton.1 hf]; simp)
  intro f hf
  unfold optProg at hf
  rcases List.mem_cons.1 hf with rfl | hf
  · exact mono_of_kind K _ (Or.inl ⟨_, rfl⟩)
  · split at hf
    · exact hc _ _ _ f hf
    · unfold fastProg at hf
      simp only [List.mem_append, List.mem_cons, List.not_mem_nil, or_false, List.mem_map] at hf
      rcases hf with (⟨t, -, rfl⟩ | rfl | rfl) | hf
      · exact mono_of_kind K _ (Or.inr (Or.inr (Or.inl ⟨_, rfl⟩)))
      · exact mono_of_kind K _ (by simp)
      · exact mono_of_kind K _ (Or.inr (Or.inl ⟨_, rfl⟩))
      · split at hf
        · exact hc _ _ _ f hf
        · simp only [List.mem_append, List.mem_cons, List.not_mem_nil, or_false, List.mem_map] at hf
          rcases hf with (rfl | ⟨t, -, rfl⟩) | rfl | rfl
          · exact mono_of_kind K _ (by simp)
          · exact mono_of_kind K _ (Or.inr (Or.inr (Or.inl ⟨_, rfl⟩)))
          · exact mono_of_kind K _ (by simp)
          · exact mono_of_kind K _ (by simp)

theorem eval_mono (K : Calc C S B G) (st : St C S G) (stru : S) :
    ∀ f ∈ evalProg K st stru, ∀ x : St C S G, x.clock ≤ (f x).clock := by
  intro f hf
  unfold evalProg at hf
  split at hf
  · exact opt_mono K st stru f hf
  · unfold checkProg at hf
    rcases List.mem_append.1 hf with hf | hf
    · exact opt_mono K st stru f hf
    · split at hf
      · cases hf
      · simp only [List.mem_append, List.mem_singleton] at hf
        rcases hf with (rfl | hf) | rfl
        · exact mono_of_kind K _ (by simp)
        · exact basic_mono K _ _ _ stru f hf
        · exact mono_of_kind K _ (Or.inl ⟨_, rfl⟩)
  · exact basic_mono K _ _ _ stru f hf

theorem step_mono (K : Calc C S B G) (x : St C S G) (op : Op C S) : x.clock ≤ (step K x op).clock := by
  cases op with
  | eval stru => exact clock_exec _ (eval_mono K x stru) x
  | evalFail stru k => exact clock_exec _ (fun f hf => eval_mono K x stru f (List.mem_of_mem_take hf)) x
  | setStructure stru => exact mono_of_kind K _ (Or.inr (Or.inl ⟨stru, rfl⟩)) x
  | configure f clicks => cases clicks <;> simp [step, clickPq]
  | setType t =>
    simp only [step, setTypeSt]
    split
    · exact Nat.le_refl _
    · split
      · exact Nat.le_refl _
      · split <;> exact Nat.le_refl _
  | setupParallel cpu n => simp only [step]; split <;> exact Nat.le_refl _

/-! ### The system -/

/-- Every call on `a` either leaves everything as it is or stores the result of the call at the evaluator of `a` or, for
`setEvaluatorType`, at a new one. -/
theorem sstep_on (K : Calc C S B G) (s : Sys C S G) (a : Nat) (op : Op C S) :
    sstep K s (.on a op) = s ∧ step K (view s a) op = view s a ∨
    ∃ i n, (i = (s.calcs a).ev ∧ n = s.nevs ∨ i = s.nevs ∧ n = s.nevs + 1) ∧
      sstep K s (.on a op) = store s a i n (step K (view s a) op) := by
  cases op with
  | setType t =>
    simp only [sstep, step]
    by_cases h : (setTypeSt K t (view s a)).evtype = (view s a).evtype
    · left
      rw [if_pos h]
      refine ⟨rfl, ?_⟩
      unfold setTypeSt at h ⊢
      by_cases h1 : (view s a).evtype = t
      · rw [if_pos h1]
      · rw [if_neg h1] at h ⊢
        by_cases h2 : t = .none
        · rw [if_pos h2]
        · rw [if_neg h2] at h ⊢
          by_cases h3 : t ≠ .basic ∧ K.canStash = false
          · rw [if_pos h3]
          · rw [if_neg h3] at h
            exact absurd h.symm h1
    · right
      rw [if_neg h]
      exact ⟨_, _, Or.inr ⟨rfl, rfl⟩, rfl⟩
  | eval stru => exact Or.inr ⟨_, _, Or.inl ⟨rfl, rfl⟩, rfl⟩
  | evalFail stru k => exact Or.inr ⟨_, _, Or.inl ⟨rfl, rfl⟩, rfl⟩
  | setStructure stru => exact Or.inr ⟨_, _, Or.inl ⟨rfl, rfl⟩, rfl⟩
  | configure f clicks => exact Or.inr ⟨_, _, Or.inl ⟨rfl, rfl⟩, rfl⟩
  | setupParallel cpu n => exact Or.inr ⟨_, _, Or.inl ⟨rfl, rfl⟩, rfl⟩

theorem view_store (s : Sys C S G) (a i n : Nat) (st : St C S G) : view (store s a i n st) a = st := by
  unfold view store
  simp

theorem sound_step (K : Calc C S B G) (s : Sys C S G) (h : Sound s) (op : SOp C S) : Sound (sstep K s op) := by
  cases op with
  | copy src dst =>
    refine ⟨fun b => ?_, fun b => ?_, h.val⟩
    · simp only [sstep]; split
      · exact h.ptr src
      · exact h.ptr b
    · simp only [sstep]; split
      · exact h.pq src
      · exact h.pq b
  | on a op =>
    rcases sstep_on K s a op with ⟨e, -⟩ | ⟨i, n, hi, e⟩
    · rw [e]; exact h
    · rw [e]
      have hb := step_bnd K (view s a) ⟨h.pq a, h.val _⟩ op
      have hm : s.clock ≤ (step K (view s a) op).clock := step_mono K (view s a) op
      have hn : s.nevs ≤ n ∧ i < n := by have := h.ptr a; omega
      refine ⟨fun b => ?_, fun b => ?_, fun j => ?_⟩
      · simp only [store]; split
        · exact hn.2
        · exact Nat.lt_of_lt_of_le (h.ptr b) hn.1
      · simp only [store]; split
        · exact hb.1
        · exact Nat.le_trans (h.pq b) hm
      · simp only [store]; split
        · exact hb.2
        · exact Nat.le_trans (h.val j) hm

theorem sound_run (K : Calc C S B G) (s : Sys C S G) (h : Sound s) (ops : List (SOp C S)) : Sound (srun K s ops) := by
  unfold srun
  induction ops generalizing s with
  | nil => exact h
  | cons op ops ih => exact ih _ (sound_step K s h op)

theorem exclusive_step (K : Calc C S B G) (s : Sys C S G) (h : Sound s) (a : Nat) (he : Exclusive s a) (op : SOp C S)
    (hn : NoCopy a op) : Exclusive (sstep K s op) a := by
  cases op with
  | copy src dst =>
    obtain ⟨h1, h2⟩ := hn
    intro b hb
    simp only [sstep]
    rw [if_neg (Ne.symm h2)]
    split
    · exact he src h1
    · exact he b hb
  | on c op =>
    rcases sstep_on K s c op with ⟨e, -⟩ | ⟨i, n, hi, e⟩
    · rw [e]; exact he
    · rw [e]
      intro b hb
      have ha := h.ptr a
      have hbp := h.ptr b
      have heb := he b hb
      simp only [store]
      by_cases hca : a = c
      · subst hca
        rw [if_neg hb, if_pos rfl]
        rcases hi with ⟨rfl, -⟩ | ⟨rfl, -⟩
        · exact heb
        · dsimp only; omega
      · rw [if_neg hca]
        by_cases hcb : b = c
        · subst hcb
          rw [if_pos rfl]
          rcases hi with ⟨rfl, -⟩ | ⟨rfl, -⟩
          · exact heb
          · dsimp only; omega
        · rw [if_neg hcb]; exact heb

/-- A call elsewhere leaves the members of `a` alone; the evaluator too when `a` does not share it. -/
theorem view_elsewhere (K : Calc C S B G) (s : Sys C S G) (h : Sound s) (a : Nat) (op : SOp C S) (ho : Elsewhere a op) :
    (sstep K s op).calcs a = s.calcs a ∧
      (Exclusive s a → Sim (view (sstep K s op) a) (view s a)) := by
  cases op with
  | copy src dst =>
    have ho : dst ≠ a := ho
    have e : (sstep K s (.copy src dst)).calcs a = s.calcs a := by simp only [sstep]; exact if_neg (Ne.symm ho)
    refine ⟨e, fun _ => ?_⟩
    have ev : view (sstep K s (.copy src dst)) a = view s a := by
      unfold view
      rw [e]
      rfl
    rw [ev]
    exact sim_refl _ ⟨h.pq a, h.val _⟩
  | on c op =>
    have ho : c ≠ a := ho
    rcases sstep_on K s c op with ⟨e, -⟩ | ⟨i, n, hi, e⟩
    · rw [e]
      exact ⟨rfl, fun _ => sim_refl _ ⟨h.pq a, h.val _⟩⟩
    · rw [e]
      have e1 : (store s c i n (step K (view s c) op)).calcs a = s.calcs a := by
        simp only [store]; exact if_neg (Ne.symm ho)
      refine ⟨e1, fun he => ?_⟩
      have hne : (s.calcs a).ev ≠ i := by
        rcases hi with ⟨rfl, -⟩ | ⟨rfl, -⟩
        · exact fun hx => he c ho hx.symm
        · have := h.ptr a; omega
      have e2 : (store s c i n (step K (view s c) op)).evs (s.calcs a).ev = s.evs (s.calcs a).ev := by
        simp only [store]; exact if_neg hne
      have hm : s.clock ≤ (step K (view s c) op).clock := step_mono K (view s c) op
      generalize step K (view s c) op = st at *
      have ev : view (store s c i n st) a = { view s a with clock := st.clock } := by
        unfold view
        rw [e1]
        dsimp only
        rw [e2]
        rfl
      rw [ev]
      have hp := h.pq a
      have hv := h.val (s.calcs a).ev
      exact ⟨rfl, rfl, rfl, rfl, rfl, rfl, rfl, rfl, rfl, rfl, Iff.rfl,
        ⟨Nat.le_trans hp hm, Nat.le_trans hv hm⟩, ⟨hp, hv⟩⟩

theorem sim_trans {x y z : St C S G} (h : Sim x y) (k : Sim y z) : Sim x z :=
  ⟨h.last.trans k.last, h.cur.trans k.cur, h.cfg.trans k.cfg, h.value.trans k.value, h.stash.trans k.stash,
    h.saved.trans k.saved, h.evtype.trans k.evtype, h.used.trans k.used, h.cpuindex.trans k.cpuindex,
    h.ncpu.trans k.ncpu, h.ord.trans k.ord, h.bx, k.by_⟩

/-! ### Theorems -/

/-- C64, calculators with evaluators of their own. Whatever calls and copies are made on other calculators, the results of
`a` are those of its own calls alone: the stored value and what the next evaluation returns. -/
theorem unshared_independent (K : Calc C S B G) (s : Sys C S G) (h : Sound s) (a : Nat) (he : Exclusive s a)
    (ops : List (SOp C S)) (hn : ∀ op ∈ ops, NoCopy a op) (stru : S) :
    (view (srun K s ops) a).value = (runOps K (view s a) (callsOn a ops)).value ∧
      (view (srun K s ops) a).cfg = (runOps K (view s a) (callsOn a ops)).cfg ∧
      evalResult K (view (srun K s ops) a) stru = evalResult K (runOps K (view s a) (callsOn a ops)) stru := by
  have key : ∀ (ops : List (SOp C S)) (s : Sys C S G) (st : St C S G), Sound s → Exclusive s a → Sim (view s a) st →
      (∀ op ∈ ops, NoCopy a op) → Sim (view (srun K s ops) a) (runOps K st (callsOn a ops)) := by
    intro ops
    induction ops with
    | nil => intro s st _ _ hs _; exact hs
    | cons op ops ih =>
      intro s st h he hs hn
      have hop := hn op (List.mem_cons_self ..)
      have hn' : ∀ op ∈ ops, NoCopy a op := fun o ho => hn o (List.mem_cons_of_mem _ ho)
      have h' := sound_step K s h op
      have he' := exclusive_step K s h a he op hop
      change Sim (view (srun K (sstep K s op) ops) a) _
      have other : Elsewhere a op → callsOn a (op :: ops) = callsOn a ops →
          Sim (view (srun K (sstep K s op) ops) a) (runOps K st (callsOn a (op :: ops))) := by
        intro ho ec
        rw [ec]
        exact ih _ st h' he' (sim_trans ((view_elsewhere K s h a op ho).2 he) hs) hn'
      cases op with
      | copy src dst => exact other hop.2 rfl
      | on c op =>
        by_cases hc : c = a
        · subst hc
          have ec : callsOn c (SOp.on c op :: ops) = op :: callsOn c ops := if_pos rfl
          rw [ec]
          change Sim _ (runOps K (step K st op) (callsOn c ops))
          refine ih _ _ h' he' ?_ hn'
          rcases sstep_on K s c op with ⟨e, e'⟩ | ⟨i, n, -, e⟩
          · rw [e]
            have := step_sim K _ _ hs op
            rw [e'] at this
            exact this
          · rw [e, view_store]
            exact step_sim K _ _ hs op
        · exact other hc (if_neg hc)
  have hk := key ops s (view s a) h he (sim_refl _ ⟨h.pq a, h.val _⟩) hn
  exact ⟨hk.value, hk.cfg, evalResult_sim K _ _ hk stru⟩

/-- C64. A copy starts with the state of the original. -/
theorem copy_same (K : Calc C S B G) (s : Sys C S G) (a b : Nat) :
    view (sstep K s (.copy a b)) b = view s a := by
  unfold view
  simp only [sstep, if_true]

/-- C64. Calls on other calculators, copies of `a` included, never change the value, structure or configuration stored in
`a`. -/
theorem members_independent (K : Calc C S B G) (s : Sys C S G) (h : Sound s) (a : Nat) (ops : List (SOp C S))
    (ho : ∀ op ∈ ops, Elsewhere a op) : (srun K s ops).calcs a = s.calcs a := by
  unfold srun
  induction ops generalizing s with
  | nil => rfl
  | cons op ops ih =>
    exact (ih _ (sound_step K s h op) fun o h => ho o (List.mem_cons_of_mem _ h)).trans
      (view_elsewhere K s h a op (ho op (List.mem_cons_self ..))).1

/-- Without `setupParallelRun` the type and the job of an existing evaluator do not change. -/
theorem job_step (K : Calc C S B G) (x : St C S G) (op : Op C S) (h1 : ∀ t, op ≠ .setType t)
    (h2 : ∀ cpu n, op ≠ .setupParallel cpu n) :
    (step K x op).evtype = x.evtype ∧ (step K x op).cpuindex = x.cpuindex ∧ (step K x op).ncpu = x.ncpu := by
  have kind : ∀ f, ((∃ t, f = setUsed t) ∨ (∃ s, f = setStru K s) ∨ (∃ t, f = addC K t) ∨ f = clickVal ∨ f = setLast ∨
      f = doStash ∨ f = doRestore ∨ f = doSave) → ∀ x : St C S G,
      (f x).evtype = x.evtype ∧ (f x).cpuindex = x.cpuindex ∧ (f x).ncpu = x.ncpu := by
    intro f h x
    rcases h with ⟨t, rfl⟩ | ⟨s, rfl⟩ | ⟨t, rfl⟩ | rfl | rfl | rfl | rfl | rfl
    · exact ⟨rfl, rfl, rfl⟩
    · unfold setStru
      dsimp only
      split <;> exact ⟨rfl, rfl, rfl⟩
    all_goals exact ⟨rfl, rfl, rfl⟩
  have run : ∀ (p : Prog C S G), (∀ f ∈ p, ∀ x : St C S G,
      (f x).evtype = x.evtype ∧ (f x).cpuindex = x.cpuindex ∧ (f x).ncpu = x.ncpu) → ∀ x,
      (exec p x).evtype = x.evtype ∧ (exec p x).cpuindex = x.cpuindex ∧ (exec p x).ncpu = x.ncpu := by
    intro p
    unfold exec
    induction p with
    | nil => intro _ x; exact ⟨rfl, rfl, rfl⟩
    | cons f p ih =>
      intro hp x
      obtain ⟨a1, a2, a3⟩ := ih (fun g hg => hp g (List.mem_cons_of_mem _ hg)) (f x)
      obtain ⟨b1, b2, b3⟩ := hp f (List.mem_cons_self ..) x
      exact ⟨a1.trans b1, a2.trans b2, a3.trans b3⟩
  have hb : ∀ c cpu n stru, ∀ f ∈ basicProg K c cpu n stru, ∀ x : St C S G,
      (f x).evtype = x.evtype ∧ (f x).cpuindex = x.cpuindex ∧ (f x).ncpu = x.ncpu := by
    intro c cpu n stru f hf
    apply kind f
    unfold basicProg at hf
    simp only [List.mem_append, List.mem_cons, List.not_mem_nil, or_false, List.mem_map] at hf
    rcases hf with ((rfl | rfl) | ⟨t, -, rfl⟩) | rfl
    · exact Or.inl ⟨_, rfl⟩
    · exact Or.inr (Or.inl ⟨_, rfl⟩)
    · exact Or.inr (Or.inr (Or.inl ⟨_, rfl⟩))
    · exact Or.inr (Or.inr (Or.inr (Or.inl rfl)))
  have hc : ∀ c cpu n stru, ∀ f ∈ completeProg K c cpu n stru, ∀ x : St C S G,
      (f x).evtype = x.evtype ∧ (f x).cpuindex = x.cpuindex ∧ (f x).ncpu = x.ncpu := by
    intro c cpu n stru f hf
    rcases List.mem_append.1 hf with hf | hf
    · exact hb c cpu n stru f hf
    · exact kind f (by rw [List.mem_singleton.1 hf]; simp)
  have ho : ∀ stru, ∀ f ∈ optProg K x stru, ∀ x : St C S G,
      (f x).evtype = x.evtype ∧ (f x).cpuindex = x.cpuindex ∧ (f x).ncpu = x.ncpu := by
    intro stru f hf
    unfold optProg at hf
    rcases List.mem_cons.1 hf with rfl | hf
    · exact kind _ (Or.inl ⟨_, rfl⟩)
    · split at hf
      · exact hc _ _ _ _ f hf
      · unfold fastProg at hf
        simp only [List.mem_append, List.mem_cons, List.not_mem_nil, or_false, List.mem_map] at hf
        rcases hf with (⟨t, -, rfl⟩ | rfl | rfl) | hf
        · exact kind _ (Or.inr (Or.inr (Or.inl ⟨_, rfl⟩)))
        · exact kind _ (by simp)
        · exact kind _ (Or.inr (Or.inl ⟨_, rfl⟩))
        · split at hf
          · exact hc _ _ _ _ f hf
          · simp only [List.mem_append, List.mem_cons, List.not_mem_nil, or_false, List.mem_map] at hf
            rcases hf with (rfl | ⟨t, -, rfl⟩) | rfl | rfl
            · exact kind _ (by simp)
            · exact kind _ (Or.inr (Or.inr (Or.inl ⟨_, rfl⟩)))
            · exact kind _ (by simp)
            · exact kind _ (by simp)
  have hev : ∀ stru, ∀ f ∈ evalProg K x stru, ∀ x : St C S G,
      (f x).evtype = x.evtype ∧ (f x).cpuindex = x.cpuindex ∧ (f x).ncpu = x.ncpu := by
    intro stru f hf
    unfold evalProg at hf
    split at hf
    · exact ho stru f hf
    · unfold checkProg at hf
      rcases List.mem_append.1 hf with hf | hf
      · exact ho stru f hf
      · split at hf
        · cases hf
        · simp only [List.mem_append, List.mem_singleton] at hf
          rcases hf with (rfl | hf) | rfl
          · exact kind _ (by simp)
          · exact hb _ _ _ _ f hf
          · exact kind _ (Or.inl ⟨_, rfl⟩)
    · exact hb _ _ _ _ f hf
  cases op with
  | eval stru => exact run _ (hev stru) x
  | evalFail stru k => exact run _ (fun f hf => hev stru f (List.mem_of_mem_take hf)) x
  | setStructure stru => exact kind _ (Or.inr (Or.inl ⟨stru, rfl⟩)) x
  | configure f clicks => cases clicks <;> exact ⟨rfl, rfl, rfl⟩
  | setType t => exact absurd rfl (h1 t)
  | setupParallel cpu n => exact absurd rfl (h2 cpu n)

/-- C64, BASIC evaluator. While no job is assigned, calls on other calculators - copies of `a`, sharing its evaluator, included -
do not change what `a` evaluates to. -/
theorem basic_copies_partial (K : Calc C S B G) (s : Sys C S G) (h : Sound s) (a : Nat)
    (hb : (view s a).evtype = .basic) (ops : List (SOp C S))
    (ho : ∀ op ∈ ops, Elsewhere a op) (hp : ∀ op ∈ ops, NotParallel op) (stru : S) :
    evalResult K (view (srun K s ops) a) stru = evalResult K (view s a) stru := by
  have job : ∀ (ops : List (SOp C S)) (s : Sys C S G), Sound s → (∀ op ∈ ops, NotParallel op) → ∀ i, i < s.nevs →
      ((srun K s ops).evs i).evtype = (s.evs i).evtype ∧ ((srun K s ops).evs i).cpuindex = (s.evs i).cpuindex ∧
        ((srun K s ops).evs i).ncpu = (s.evs i).ncpu := by
    intro ops
    induction ops with
    | nil => intro s _ _ i _; exact ⟨rfl, rfl, rfl⟩
    | cons op ops ih =>
      intro s h hp i hi
      have hop := hp op (List.mem_cons_self ..)
      have one : s.nevs ≤ (sstep K s op).nevs ∧ ((sstep K s op).evs i).evtype = (s.evs i).evtype ∧
          ((sstep K s op).evs i).cpuindex = (s.evs i).cpuindex ∧ ((sstep K s op).evs i).ncpu = (s.evs i).ncpu := by
        cases op with
        | copy src dst => exact ⟨Nat.le_refl _, rfl, rfl, rfl⟩
        | on c op =>
          by_cases ht : ∃ t, op = .setType t
          · obtain ⟨t, rfl⟩ := ht
            simp only [sstep]
            split
            · exact ⟨Nat.le_refl _, rfl, rfl, rfl⟩
            · have hne : i ≠ s.nevs := by omega
              simp only [store, if_neg hne]
              exact ⟨Nat.le_succ _, by trivial⟩
          · have hs : sstep K s (.on c op) = store s c (s.calcs c).ev s.nevs (step K (view s c) op) := by
              cases op <;> first | rfl | exact absurd ⟨_, rfl⟩ ht
            rw [hs]
            refine ⟨Nat.le_refl _, ?_⟩
            simp only [store]
            split
            · next hi' =>
              obtain ⟨j1, j2, j3⟩ := job_step K (view s c) op (fun t e => ht ⟨t, e⟩)
                (fun cpu n e => by subst e; exact hop)
              rw [j1, j2, j3, hi']
              exact ⟨rfl, rfl, rfl⟩
            · exact ⟨rfl, rfl, rfl⟩
      obtain ⟨r1, r2, r3⟩ := ih (sstep K s op) (sound_step K s h op)
        (fun o ho => hp o (List.mem_cons_of_mem _ ho)) i (Nat.lt_of_lt_of_le hi one.1)
      exact ⟨r1.trans one.2.1, r2.trans one.2.2.1, r3.trans one.2.2.2⟩
  have hm := members_independent K s h a ops ho
  obtain ⟨j1, j2, j3⟩ := job ops s h hp _ (h.ptr a)
  have e1 : (view (srun K s ops) a).evtype = .basic := by
    rw [← hb]; unfold view; rw [hm]; exact j1
  have e2 : (view (srun K s ops) a).cpuindex = (view s a).cpuindex := by unfold view; rw [hm]; exact j2
  have e3 : (view (srun K s ops) a).ncpu = (view s a).ncpu := by unfold view; rw [hm]; exact j3
  have e4 : (view (srun K s ops) a).cfg = (view s a).cfg := by unfold view; rw [hm]
  have p1 : ∀ st : St C S G, st.evtype = .basic → evalSt K st stru = basicFinal K st.cpuindex st.ncpu stru st := by
    intro st hst
    rw [evalSt_eq]
    simp only [hst]
  unfold evalResult
  dsimp only
  rw [p1 _ e1, p1 _ hb, e1, hb]
  simp only [basicFinal_value, e2, e3, e4]
  simp

/-- C64. Choosing another evaluator type for the copy separates the two: both hold evaluators of their own afterwards. -/
theorem copy_detached (K : Calc C S B G) (s : Sys C S G) (h : Sound s) (a b : Nat) (hab : b ≠ a) (he : Exclusive s a) (t : EvType)
    (h1 : t ≠ (view s a).evtype) (h2 : t ≠ .none) (h3 : t = .basic ∨ K.canStash = true) :
    Exclusive (srun K s [.copy a b, .on b (.setType t)]) a ∧ Exclusive (srun K s [.copy a b, .on b (.setType t)]) b := by
  have hv := copy_same K s a b
  have hst : setTypeSt K t (view (sstep K s (.copy a b)) b) =
      { view (sstep K s (.copy a b)) b with evtype := t, last := none, value := 0 } := by
    unfold setTypeSt
    rw [hv, if_neg (Ne.symm h1), if_neg h2, if_neg]
    rintro ⟨x, y⟩
    rcases h3 with h3 | h3
    · exact x h3
    · rw [h3] at y; cases y
  have hs : srun K s [.copy a b, .on b (.setType t)] =
      store (sstep K s (.copy a b)) b s.nevs (s.nevs + 1) (setTypeSt K t (view (sstep K s (.copy a b)) b)) := by
    refine Eq.trans (b := if (setTypeSt K t (view (sstep K s (.copy a b)) b)).evtype = (view (sstep K s (.copy a b)) b).evtype
      then sstep K s (.copy a b) else store (sstep K s (.copy a b)) b s.nevs (s.nevs + 1)
        (setTypeSt K t (view (sstep K s (.copy a b)) b))) rfl (if_neg ?_)
    intro hx
    rw [hst, hv] at hx
    exact h1 hx
  rw [hs]
  have pa := h.ptr a
  constructor
  · intro c hc
    simp only [store, sstep]
    rw [if_neg (Ne.symm hab), if_neg (Ne.symm hab)]
    by_cases hcb : c = b
    · rw [if_pos hcb]; dsimp only; omega
    · rw [if_neg hcb, if_neg hcb]; exact he c hc
  · intro c hc
    have pc := h.ptr c
    simp only [store, sstep]
    rw [if_neg hc, if_neg hc, if_pos trivial]
    dsimp only
    omega

/-! ### Cases and counterexamples -/

theorem fresh_sound (c : C) (e : S) (n : Nat) : Sound (fresh c e n : Sys C S G) :=
  ⟨fun a => by simp only [fresh]; split <;> omega, fun _ => Nat.le_refl _, fun _ => Nat.le_refl _⟩

theorem fresh_exclusive (c : C) (e : S) (n a : Nat) (h : a < n) : Exclusive (fresh c e n : Sys C S G) a := by
  intro b hb
  simp only [fresh]
  rw [if_pos h]
  split <;> omega

/-- Two calculators, calls on the second one in between. -/
example : (view (srun exCalc (fresh 2 [] 2)
    [.on 0 (.setType .optimized), .on 0 (.eval struA), .on 1 (.eval struB), .on 1 (.setupParallel 0 2)]) 0).value =
    basicValue exCalc 2 struA := by decide +kernel

/-- A calculator and its copy share the record of the last evaluated structure: after the copy evaluated another structure,
the OPTIMIZED evaluation of that structure by the original returns the value of the old structure. -/
theorem copy_optimized_bug : ∃ ops : List (SOp Rat (List Atom)), (∀ op ∈ ops, Elsewhere 0 op) ∧
    let s := srun exCalc (fresh 2 [] 1) [.on 0 (.setType .optimized), .on 0 (.eval struA)]
    evalResult exCalc (view s 0) struB = some (basicValue exCalc 2 struB) ∧
    evalResult exCalc (view (srun exCalc s ops) 0) struB = some (basicValue exCalc 2 struA) ∧
    basicValue exCalc 2 struA ≠ basicValue exCalc 2 struB := by
  refine ⟨[.copy 0 1, .on 1 (.eval struB)], ?_, ?_⟩
  · intro op h
    simp only [List.mem_cons, List.not_mem_nil, or_false] at h
    rcases h with rfl | rfl <;> simp [Elsewhere]
  · decide +kernel

/-- `setupParallelRun` on the copy makes the original evaluate its share only. -/
theorem copy_parallel_bug : ∃ ops : List (SOp Rat (List Atom)), (∀ op ∈ ops, Elsewhere 0 op) ∧
    let s := srun exCalc (fresh 2 [] 1) [.on 0 (.eval struA)]
    evalResult exCalc (view s 0) struA = some (basicValue exCalc 2 struA) ∧
    evalResult exCalc (view (srun exCalc s ops) 0) struA ≠ some (basicValue exCalc 2 struA) := by
  refine ⟨[.copy 0 1, .on 1 (.setupParallel 0 2)], ?_, ?_⟩
  · intro op h
    simp only [List.mem_cons, List.not_mem_nil, or_false] at h
    rcases h with rfl | rfl <;> simp [Elsewhere]
  · decide +kernel

end Verif.Copies
