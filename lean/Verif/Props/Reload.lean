import Verif.Model.Reload
import Verif.Props.History
import Verif.Props.Ticker
import Mathlib.Tactic.Basic
/-
C65: a saved and reloaded calculator behaves like the original.
-/
set_option linter.unusedSectionVars false
namespace Verif.Reload
open Verif.Eval Verif.Diff Verif.History
variable {C S B G : Type} [AddCommGroup G]

/-! ### Tickers -/

/-- The tickers of the reload model are those of the EventTicker model (C02), renumbered by the constant `ga`. -/
theorem loadTick_spec (g m ga : Nat) :
    Verif.Ticker.load (0, (g : Int)) (0, (m : Int)) (0, (ga : Int)) = (0, (loadTick g m ga : Int) - ga) := by
  unfold Verif.Ticker.load loadTick Verif.Ticker.gt Verif.Ticker.lt
  by_cases h : ga > g
  · rw [if_pos h, if_pos (by simp; omega), if_neg (by simp)]
    simp only [Prod.mk.injEq, true_and]
    push_cast
    omega
  · rw [if_neg h, if_neg (by simp; omega)]
    simp only [Prod.mk.injEq, true_and]
    push_cast
    omega

/-- C65, for any number of components: a component ticker that was not older than the value ticker is not older after loading, when
it is loaded later; the click counter of the process may advance in between. -/
theorem load_outdated (g1 g2 m v ga : Verif.Ticker.Tick) (hg : Verif.Ticker.le g1 g2 = true) (he : g1.1 = g2.1)
    (h : Verif.Ticker.ge m v = true) : Verif.Ticker.ge (Verif.Ticker.load g2 m ga) (Verif.Ticker.load g1 v ga) = true := by
  have ge_iff : ∀ a b : Verif.Ticker.Tick, Verif.Ticker.ge a b = true ↔ ¬ (Verif.Ticker.lt a b = true) := by
    intro a b; unfold Verif.Ticker.ge; simp
  rw [ge_iff] at h ⊢
  rw [Verif.Ticker.le_iff] at hg
  rw [Verif.Ticker.lt_iff] at h ⊢
  unfold Verif.Ticker.load
  by_cases h2 : Verif.Ticker.gt ga g2 = true
  · have h1 : Verif.Ticker.gt ga g1 = true := by
      rw [Verif.Ticker.gt_iff] at h2 ⊢; omega
    rw [if_pos h2, if_pos h1]
    by_cases hf : ga.1 ≠ g2.1
    · rw [if_pos hf, if_pos (by omega)]; simp
    · rw [if_neg hf, if_neg (by omega)]
      dsimp only
      omega
  · rw [if_neg h2]
    by_cases h1 : Verif.Ticker.gt ga g1 = true
    · rw [if_pos h1]
      rw [Verif.Ticker.gt_iff] at h1 h2
      rw [if_neg (by omega)]
      dsimp only
      omega
    · rw [if_neg h1]; exact h

/-! ### What a reload keeps -/

/-- C65. The reloaded calculator has the value, structure, settings, evaluator type and job of the original; which
evaluator was used last is forgotten. -/
theorem reload_members (st : St C S G) (ar : Archive C S G) (h : save st = some ar) (g1 g2 : Nat) :
    (reload ar g1 g2).value = st.value ∧ (reload ar g1 g2).cur = st.cur ∧ (reload ar g1 g2).cfg = st.cfg ∧
      (reload ar g1 g2).evtype = st.evtype ∧ (reload ar g1 g2).cpuindex = st.cpuindex ∧ (reload ar g1 g2).ncpu = st.ncpu ∧
      (reload ar g1 g2).used = .none := by
  unfold save at h
  split at h
  · cases h
  · cases h
    exact ⟨rfl, rfl, rfl, rfl, rfl, rfl, rfl⟩

/-- Calculators with the CHECK evaluator cannot be saved. -/
theorem save_check_bug (st : St C S G) (h : st.evtype = .check) : save st = none := if_pos h

theorem save_ok (st : St C S G) (h : st.evtype ≠ .check) : (save st).isSome := by
  unfold save
  rw [if_neg h]
  rfl

/-! ### Reload in the middle of a history, clicks while loading -/

theorem reload_ctl (a b : St C S G) (h : ctl a = ctl b) (ar br : Archive C S G) (ha : save a = some ar) (hb : save b = some br)
    (g1 g2 : Nat) : ctl (reload ar g1 g2) = ctl (reload br g1 g2) := by
  obtain ⟨h1, h2, h3, h4, h5, h6, h7, h8, h9⟩ := (ctl_iff _ _).1 h
  unfold save at ha hb
  split at ha
  · cases ha
  · split at hb
    · cases hb
    · cases ha
      cases hb
      rw [ctl_iff]
      simp only [reload, h1, h2, h3, h4, h5, h6, h7, h9]
      simp

theorem reload_inv (K : Calc C S B G) (n : Nat) (hn : 1 ≤ n) (s : Nat → St C S G) (t : Bool) (h : Inv K n s t) (ar : Nat → Archive C S G)
    (ha : ∀ k, k < n → save (s k) = some (ar k)) (g1 g2 : Nat) (hg : g1 ≤ g2) :
    Inv K n (fun k => reload (ar k) g1 g2) t := by
  have h0 := ha 0 hn
  have hb := h.bnd
  unfold save at h0
  split at h0
  · cases h0
  · next hc =>
    have e0 : ar 0 = ⟨(s 0).value, (s 0).cur, (s 0).cfg, (s 0).evtype, (s 0).cpuindex, (s 0).ncpu, (s 0).valTick, (s 0).last,
        (s 0).pqTick, (s 0).clock⟩ := (Option.some.inj h0).symm
    refine ⟨fun k hk => reload_ctl _ _ (h.sync k hk) _ _ (ha k hk) (ha 0 hn) g1 g2, fun k hk => ?_, ?_, ?_, ?_⟩
    · rw [(reload_members _ _ (ha k hk) g1 g2).2.2.2.2.1]; exact h.idx k hk
    · rw [(reload_members _ _ (ha 0 hn) g1 g2).2.2.2.2.2.1]; exact h.ncpu
    · have hp := hb.pq
      have hv := hb.val
      rw [e0]
      refine ⟨?_, ?_, hb.last⟩
      · simp only [reload, loadTick]; split <;> omega
      · simp only [reload, loadTick]; split <;> omega
    · intro ht
      rcases h.good ht with hx | hx | ⟨hx, hy⟩
      · left
        rw [e0]
        simp only [reload, loadTick]
        split <;> split <;> omega
      · right; left; rw [e0]; exact hx
      · right; right
        constructor
        · rw [e0]; exact hx
        · rw [e0]
          rw [Finset.sum_congr rfl fun k hk => (reload_members _ _ (ha k (Finset.mem_range.1 hk)) g1 g2).1]
          exact hy

/-- C65. Jobs of a calculator (one job: an ordinary calculator) that are saved after any history of C12 and loaded in other processes,
with any clicks of the process before and while loading, and then used in any further history: the next evaluation
returns values that add up to the BASIC value. -/
theorem reload_history_partial (K : Calc C S B G) (hK : Lawful K) (n : Nat) (hn : 1 ≤ n) (c : C) (e : S) (ops : List (Op C S))
    (ha : ∀ op ∈ ops, Allowed n op) (ht : taintAfter K (init c e 0 (n : Int)) false ops = false)
    (ar : Nat → Archive C S G) (hs : ∀ k, k < n → save (runOps K (init c e (k : Int) (n : Int)) ops) = some (ar k))
    (g1 g2 : Nat) (hg : g1 ≤ g2) (ops' : List (Op C S)) (ha' : ∀ op ∈ ops', Allowed n op)
    (ht' : taintAfter K (reload (ar 0) g1 g2) false ops' = false) (stru : S) :
    ∑ k ∈ Finset.range n, (evalSt K (runOps K (reload (ar k) g1 g2) ops') stru).value
      = basicValue K (evalSt K (runOps K (reload (ar 0) g1 g2) ops') stru).cfg stru := by
  have h := inv_run K hK n hn ops ha _ false (inv_init K n c e)
  simp only [Nat.cast_zero] at h
  rw [ht] at h
  have hr := reload_inv K n hn _ false h ar hs g1 g2 hg
  have h2 := inv_run K hK n hn ops' ha' _ false hr
  rw [ht'] at h2
  exact (eval_core K hK n hn _ h2 stru).1

/-! ### Reload without clicks in between: exactly the original -/

/-- Same members apart from those that are not archived; same order of the tickers. -/
structure RSim (b : Bool) (x y : St C S G) : Prop where
  last : x.last = y.last
  cur : x.cur = y.cur
  cfg : x.cfg = y.cfg
  value : x.value = y.value
  stash : b = true → x.stash = y.stash
  evtype : x.evtype = y.evtype
  cpuindex : x.cpuindex = y.cpuindex
  ncpu : x.ncpu = y.ncpu
  ord : x.valTick ≤ x.pqTick ↔ y.valTick ≤ y.pqTick
  bx : x.pqTick ≤ x.clock ∧ x.valTick ≤ x.clock
  by_ : y.pqTick ≤ y.clock ∧ y.valTick ≤ y.clock

/-- Respects `RSim` with and without the stash. -/
def RResp (f : St C S G → St C S G) : Prop := ∀ b x y, RSim b x y → RSim b (f x) (f y)

theorem r_clickPq : RResp (clickPq : St C S G → St C S G) := by
  intro b x y h
  obtain ⟨h1, h2, h3, h4, h5, h6, h7, h8, h11, ⟨a1, a2⟩, b1, b2⟩ := h
  exact ⟨h1, h2, h3, h4, h5, h6, h7, h8, by simp only [clickPq]; omega, by simp only [clickPq]; omega,
    by simp only [clickPq]; omega⟩

theorem r_clickVal : RResp (clickVal : St C S G → St C S G) := by
  intro b x y h
  obtain ⟨h1, h2, h3, h4, h5, h6, h7, h8, h11, ⟨a1, a2⟩, b1, b2⟩ := h
  exact ⟨h1, h2, h3, h4, h5, h6, h7, h8, by simp only [clickVal]; omega, by simp only [clickVal]; omega,
    by simp only [clickVal]; omega⟩

theorem r_setStru (K : Calc C S B G) (stru : S) : RResp (setStru K stru) := by
  intro b x y h
  obtain ⟨h1, h2, h3, h4, h5, h6, h7, h8, h11, bx, by_⟩ := h
  unfold setStru
  rw [h3]
  have hs : RSim b { x with cur := stru, cfg := (K.custom stru y.cfg).1, value := 0 }
      { y with cur := stru, cfg := (K.custom stru y.cfg).1, value := 0 } :=
    ⟨h1, rfl, rfl, rfl, h5, h6, h7, h8, h11, bx, by_⟩
  dsimp only
  split
  · exact r_clickPq _ _ _ hs
  · exact hs

theorem r_addC (K : Calc C S B G) (t : Contrib B) : RResp (addC K t) := by
  intro b x y h
  obtain ⟨h1, h2, h3, h4, h5, h6, h7, h8, h11, bx, by_⟩ := h
  exact ⟨h1, h2, h3, by simp only [addC]; rw [h2, h3, h4], h5, h6, h7, h8, h11, bx, by_⟩

theorem r_setLast : RResp (setLast : St C S G → St C S G) := by
  intro b x y h
  obtain ⟨h1, h2, h3, h4, h5, h6, h7, h8, h11, bx, by_⟩ := h
  exact ⟨by simp only [setLast]; rw [h2], h2, h3, h4, h5, h6, h7, h8, h11, bx, by_⟩

theorem r_setUsed (t : EvType) : RResp (setUsed t : St C S G → St C S G) := fun _ _ _ h =>
  ⟨h.last, h.cur, h.cfg, h.value, h.stash, h.evtype, h.cpuindex, h.ncpu, h.ord, h.bx, h.by_⟩

theorem r_doSave : RResp (doSave : St C S G → St C S G) := fun _ _ _ h =>
  ⟨h.last, h.cur, h.cfg, h.value, h.stash, h.evtype, h.cpuindex, h.ncpu, h.ord, h.bx, h.by_⟩

theorem r_stash (b : Bool) (x y : St C S G) (h : RSim b x y) : RSim true (doStash x) (doStash y) :=
  ⟨h.last, h.cur, h.cfg, h.value, fun _ => h.value, h.evtype, h.cpuindex, h.ncpu, h.ord, h.bx, h.by_⟩

theorem r_restore (x y : St C S G) (h : RSim true x y) : RSim true (doRestore x) (doRestore y) :=
  ⟨h.last, h.cur, h.cfg, h.stash rfl, h.stash, h.evtype, h.cpuindex, h.ncpu, h.ord, h.bx, h.by_⟩

theorem r_weaken {b : Bool} {x y : St C S G} (h : RSim b x y) : RSim false x y :=
  ⟨h.last, h.cur, h.cfg, h.value, (fun e => by cases e), h.evtype, h.cpuindex, h.ncpu, h.ord, h.bx, h.by_⟩

/-- Programs that restore only what they have stashed. -/
inductive Safe : Bool → Prog C S G → Prop
  | nil (b) : Safe b []
  | cons (b) (f : St C S G → St C S G) (p : Prog C S G) : RResp f → Safe b p → Safe b (f :: p)
  | stash (b) (p : Prog C S G) : Safe true p → Safe b (doStash :: p)
  | restore (p : Prog C S G) : Safe true p → Safe true (doRestore :: p)

theorem safe_exec {b : Bool} {p : Prog C S G} (hp : Safe b p) (x y : St C S G) (h : RSim b x y) :
    RSim false (exec p x) (exec p y) := by
  induction hp generalizing x y with
  | nil b => exact r_weaken h
  | cons b f p hf _ ih => exact ih _ _ (hf b x y h)
  | stash b p _ ih => exact ih _ _ (r_stash b x y h)
  | restore p _ ih => exact ih _ _ (r_restore x y h)

theorem safe_take {b : Bool} {p : Prog C S G} (hp : Safe b p) (k : Nat) : Safe b (p.take k) := by
  induction hp generalizing k with
  | nil b => rw [List.take_nil]; exact .nil b
  | cons b f p hf _ ih =>
    cases k with
    | zero => exact .nil b
    | succ k => exact .cons b f _ hf (ih k)
  | stash b p _ ih =>
    cases k with
    | zero => exact .nil b
    | succ k => exact .stash b _ (ih k)
  | restore p _ ih =>
    cases k with
    | zero => exact .nil _
    | succ k => exact .restore _ (ih k)

theorem safe_prefix (b : Bool) (p q : Prog C S G) (hp : ∀ f ∈ p, RResp f) (hq : Safe b q) : Safe b (p ++ q) := by
  induction p with
  | nil => exact hq
  | cons f p ih =>
    exact .cons b f _ (hp f (List.mem_cons_self ..)) (ih fun g hg => hp g (List.mem_cons_of_mem _ hg))

theorem safe_append {b : Bool} {p : Prog C S G} (hp : Safe b p) (q : Prog C S G) (hq : ∀ b, Safe b q) : Safe b (p ++ q) := by
  induction hp with
  | nil b => exact hq b
  | cons b f p hf _ ih => exact .cons b f _ hf ih
  | stash b p _ ih => exact .stash b _ ih
  | restore p _ ih => exact .restore _ ih

theorem adds_resp (K : Calc C S B G) (l : List (Contrib B)) : ∀ f ∈ l.map (addC K), RResp f := by
  intro f hf
  obtain ⟨t, -, rfl⟩ := List.mem_map.1 hf
  exact r_addC K t

theorem safe_basic (K : Calc C S B G) (b : Bool) (c : C) (cpu ncpu : Int) (stru : S) : Safe b (basicProg K c cpu ncpu stru) := by
  unfold basicProg
  dsimp only
  rw [List.append_assoc]
  refine .cons _ _ _ (r_setUsed _) (.cons _ _ _ (r_setStru K stru) ?_)
  change Safe _ (_ ++ _)
  exact safe_prefix b (List.map (addC K) _) [clickVal] (adds_resp K _) (.cons _ _ _ r_clickVal (.nil b))

theorem safe_complete (K : Calc C S B G) (b : Bool) (c : C) (cpu ncpu : Int) (stru : S) :
    Safe b (completeProg K c cpu ncpu stru) :=
  safe_append (safe_basic K b c cpu ncpu stru) _ fun b => .cons _ _ _ r_setLast (.nil b)

theorem safe_fast (K : Calc C S B G) (b : Bool) (st : St C S G) (s0 stru : S) (d : SD) : Safe b (fastProg K st s0 stru d) := by
  unfold fastProg
  dsimp only
  rw [List.append_assoc]
  refine safe_prefix b _ _ (adds_resp K _) (.stash b _ (.cons _ _ _ (r_setStru K stru) ?_))
  change Safe true (ite _ _ _)
  split
  · exact safe_complete K true _ _ _ stru
  · rw [List.append_assoc]
    refine .restore _ ?_
    change Safe _ (_ ++ _)
    exact (safe_prefix true (List.map (addC K) _) [setLast, clickVal] (adds_resp K _)
      (.cons _ _ _ r_setLast (.cons _ _ _ r_clickVal (.nil true))))

theorem safe_opt (K : Calc C S B G) (b : Bool) (st : St C S G) (stru : S) : Safe b (optProg K st stru) := by
  unfold optProg
  refine .cons _ _ _ (r_setUsed _) ?_
  split
  · exact safe_complete K b _ _ _ stru
  · exact safe_fast K b st _ stru _

theorem safe_eval (K : Calc C S B G) (b : Bool) (st : St C S G) (stru : S) : Safe b (evalProg K st stru) := by
  unfold evalProg
  split
  · exact safe_opt K b st stru
  · unfold checkProg
    refine safe_append (safe_opt K b st stru) _ fun b => ?_
    split
    · exact .nil b
    · exact .cons _ _ _ r_doSave (safe_append (safe_basic K b _ _ _ stru) _ fun b => .cons _ _ _ (r_setUsed _) (.nil b))
  · exact safe_basic K b _ _ _ stru

theorem valTick_setStru (K : Calc C S B G) (stru : S) (x : St C S G) : (setStru K stru x).valTick = x.valTick := by
  unfold setStru
  dsimp only
  split <;> rfl

theorem fastChoice_r (K : Calc C S B G) (x y : St C S G) (h : RSim false x y) (stru : S) :
    fastChoice K x stru = fastChoice K y stru := by
  unfold fastChoice
  rw [h.last, h.cfg]
  cases y.last with
  | none => rfl
  | some s0 =>
    dsimp only
    by_cases hx : x.pqTick ≥ x.valTick
    · rw [if_pos hx, if_pos (h.ord.1 hx)]
    · rw [if_neg hx, if_neg fun hy => hx (h.ord.2 hy)]

theorem setStru_ord (K : Calc C S B G) (x y : St C S G) (h : RSim false x y) (stru : S) :
    (setStru K stru x).pqTick ≥ x.valTick ↔ (setStru K stru y).pqTick ≥ y.valTick := by
  have hs := (r_setStru K stru false x y h).ord
  rw [valTick_setStru, valTick_setStru] at hs
  exact hs

theorem fastProg_r (K : Calc C S B G) (x y : St C S G) (h : RSim false x y) (s0 stru : S) (d : SD) :
    fastProg K x s0 stru d = fastProg K y s0 stru d := by
  have hs := setStru_ord K x y h stru
  unfold fastProg
  rw [h.cfg, h.cur, h.cpuindex, h.ncpu]
  dsimp only
  by_cases hx : (setStru K stru x).pqTick ≥ x.valTick
  · rw [if_pos hx, if_pos (hs.1 hx)]
  · rw [if_neg hx, if_neg fun hy => hx (hs.2 hy)]

theorem optProg_r (K : Calc C S B G) (x y : St C S G) (h : RSim false x y) (stru : S) : optProg K x stru = optProg K y stru := by
  unfold optProg
  rw [fastChoice_r K x y h stru]
  cases fastChoice K y stru with
  | none => simp only [h.cfg, h.cpuindex, h.ncpu]
  | some p => dsimp only; rw [fastProg_r K x y h]

theorem basic_used (K : Calc C S B G) (cpu n : Int) (stru : S) (st : St C S G) : (basicFinal K cpu n stru st).used = .basic := by
  unfold basicFinal setStru
  dsimp only
  split <;> rfl

theorem optFinal_used (K : Calc C S B G) (x y : St C S G) (h : RSim false x y) (stru : S) :
    (optFinal K stru x).used = (optFinal K stru y).used := by
  have hs := setStru_ord K x y h stru
  unfold optFinal
  rw [fastChoice_r K x y h stru]
  cases fastChoice K y stru with
  | none => exact (basic_used K x.cpuindex x.ncpu stru x).trans (basic_used K y.cpuindex y.ncpu stru y).symm
  | some p =>
    dsimp only
    by_cases hx : (setStru K stru x).pqTick ≥ x.valTick
    · rw [if_pos hx, if_pos (hs.1 hx)]
      exact (basic_used K x.cpuindex x.ncpu stru (midFast K p.1 stru p.2 (setUsed .optimized x))).trans
        (basic_used K y.cpuindex y.ncpu stru (midFast K p.1 stru p.2 (setUsed .optimized y))).symm
    · rw [if_neg hx, if_neg fun hy => hx (hs.2 hy)]
      have e : ∀ z : St C S G, (fastFinal K p.1 stru p.2 (setUsed .optimized z)).used = .optimized := by
        intro z
        change (midFast K p.1 stru p.2 (setUsed .optimized z)).used = _
        unfold midFast setStru
        dsimp only
        split <;> rfl
      rw [e, e]

theorem optFinal_r (K : Calc C S B G) (x y : St C S G) (h : RSim false x y) (stru : S) :
    RSim false (optFinal K stru x) (optFinal K stru y) := by
  rw [← exec_opt, ← exec_opt, optProg_r K x y h]
  exact safe_exec (safe_opt K false y stru) x y h

theorem evalProg_r (K : Calc C S B G) (x y : St C S G) (h : RSim false x y) (stru : S) : evalProg K x stru = evalProg K y stru := by
  unfold evalProg
  rw [h.evtype]
  cases y.evtype with
  | none | basic => simp only [h.cfg, h.cpuindex, h.ncpu]
  | optimized => exact optProg_r K x y h stru
  | check =>
    dsimp only
    unfold checkProg
    have hu := optFinal_used K x y h stru
    have hr := optFinal_r K x y h stru
    rw [exec_opt, exec_opt]
    rw [optProg_r K x y h stru]
    dsimp only
    rw [hu, hr.cfg, h.cpuindex, h.ncpu]

theorem evalSt_r (K : Calc C S B G) (x y : St C S G) (h : RSim false x y) (stru : S) :
    RSim false (evalSt K x stru) (evalSt K y stru) := by
  unfold evalSt
  rw [evalProg_r K x y h]
  exact safe_exec (safe_eval K false y stru) x y h

theorem evalResult_r (K : Calc C S B G) (x y : St C S G) (h : RSim false x y) (stru : S) :
    evalResult K x stru = evalResult K y stru := by
  have he := evalSt_r K x y h stru
  unfold evalResult
  dsimp only
  rw [he.value, h.evtype]
  by_cases hc : y.evtype = .check
  · have hxc : x.evtype = .check := h.evtype.trans hc
    have ex : evalSt K x stru = checkFinal K stru x := by rw [evalSt_eq, hxc]
    have ey : evalSt K y stru = checkFinal K stru y := by rw [evalSt_eq, hc]
    have hu := optFinal_used K x y h stru
    have hv := (optFinal_r K x y h stru).value
    have key : ∀ z : St C S G, (checkFinal K stru z).used = .check → (checkFinal K stru z).saved = (optFinal K stru z).value := by
      intro z hz
      unfold checkFinal at hz ⊢
      dsimp only at hz ⊢
      by_cases hb : (optFinal K stru z).used = .basic
      · rw [if_pos hb, hb] at hz; cases hz
      · rw [if_neg hb]
        change (setStru K stru _).saved = _
        unfold setStru
        dsimp only
        split <;> rfl
    have hused : (checkFinal K stru x).used = (checkFinal K stru y).used := by
      unfold checkFinal
      dsimp only
      by_cases hb : (optFinal K stru y).used = .basic
      · rw [if_pos hb, if_pos (hu.trans hb), hu]
      · rw [if_neg hb, if_neg (by rw [hu]; exact hb)]; rfl
    rw [ex, ey, hused]
    by_cases hcu : (checkFinal K stru y).used = .check
    · rw [key x (hused.trans hcu), key y hcu, hv]
    · rw [if_neg fun hx => hcu hx.2.1, if_neg fun hx => hcu hx.2.1]
  · rw [if_neg fun hx => hc hx.1, if_neg fun hx => hc hx.1]

theorem step_r (K : Calc C S B G) (x y : St C S G) (h : RSim false x y) (op : Op C S) : RSim false (step K x op) (step K y op) := by
  cases op with
  | eval stru => exact evalSt_r K x y h stru
  | evalFail stru k =>
    simp only [step]
    rw [evalProg_r K x y h]
    exact safe_exec (safe_take (safe_eval K false y stru) k) x y h
  | setStructure stru => exact r_setStru K stru false x y h
  | configure f clicks =>
    obtain ⟨h1, h2, h3, h4, h5, h6, h7, h8, h11, bx, by_⟩ := h
    have hs : RSim false { x with cfg := f x.cfg } { y with cfg := f y.cfg } :=
      ⟨h1, h2, by simp only; rw [h3], h4, h5, h6, h7, h8, h11, bx, by_⟩
    cases clicks
    · exact hs
    · exact r_clickPq _ _ _ hs
  | setType t =>
    simp only [step, setTypeSt]
    rw [h.evtype]
    split
    · exact h
    · split
      · exact h
      · split
        · exact h
        · exact ⟨rfl, h.cur, h.cfg, rfl, h.stash, rfl, h.cpuindex, h.ncpu, h.ord, h.bx, h.by_⟩
  | setupParallel cpu n =>
    simp only [step]
    split
    · exact h
    · exact ⟨h.last, h.cur, h.cfg, h.value, h.stash, h.evtype, rfl, rfl, h.ord, h.bx, h.by_⟩

/-- C65, any class and any history, failed calls included: when nothing clicks while the archive is loaded, the reloaded calculator
returns exactly what the original returns, in every later history. -/
theorem reload_exact (K : Calc C S B G) (st : St C S G) (hb : st.pqTick ≤ st.clock ∧ st.valTick ≤ st.clock)
    (ar : Archive C S G) (h : save st = some ar) (g : Nat) (ops : List (Op C S)) (stru : S) :
    (runOps K (reload ar g g) ops).value = (runOps K st ops).value ∧
      (runOps K (reload ar g g) ops).cfg = (runOps K st ops).cfg ∧
      evalResult K (runOps K (reload ar g g) ops) stru = evalResult K (runOps K st ops) stru := by
  have h0 : RSim false (reload ar g g) st := by
    obtain ⟨e1, e2, e3, e4, e5, e6, -⟩ := reload_members st ar h g g
    unfold save at h
    split at h
    · cases h
    · cases h
      refine ⟨rfl, rfl, rfl, rfl, (fun e => by cases e), rfl, rfl, rfl, ?_, ?_, hb⟩
      · simp only [reload, loadTick]; split <;> omega
      · simp only [reload, loadTick]; split <;> omega
  have hr : RSim false (runOps K (reload ar g g) ops) (runOps K st ops) := by
    unfold runOps
    generalize reload ar g g = x at h0
    clear h hb
    induction ops generalizing x st with
    | nil => exact h0
    | cons op ops ih => exact ih _ _ (step_r K _ _ h0 op)
  exact ⟨hr.value, hr.cfg, evalResult_r K _ _ hr stru⟩

/-! ### Cases -/

/-- An OPTIMIZED calculator saved after an evaluation. -/
def exSt : St Rat (List Atom) Int := runOps exCalc (init 2 [] 0 1) [.setType .optimized, .eval struA]

example : (save exSt).isSome ∧ exSt.pqTick ≤ exSt.clock ∧ exSt.valTick ≤ exSt.clock := by decide +kernel

/-- Loaded in a process with clock 7, it still does the fast update and gets the right value. -/
example : ((save exSt).map fun ar => evalResult exCalc (reload ar 7 7) struB) = some (some (basicValue exCalc 2 struB)) := by
  decide +kernel

/-- A value ticker loaded before a click and a component ticker after it: the order is kept, an equality may arise, which
only costs a recalculation. -/
example : Verif.Ticker.load (0, 4) (0, 8) (0, 10) = (0, 2) ∧ Verif.Ticker.load (0, 5) (0, 7) (0, 10) = (0, 2) := by decide

end Verif.Reload
