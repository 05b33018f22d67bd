import Verif.Model.Rounding
import Verif.Props.History
import Mathlib.Tactic.Linarith
import Mathlib.Tactic.Ring
import Mathlib.Tactic.Positivity
import Mathlib.Tactic.Tauto
import Mathlib.Data.Rat.Floor
set_option linter.unusedSectionVars false
/-!
C69: what rounding does to the values of BASIC, OPTIMIZED and merged parallel evaluations.  `fl` is any rounding of sums with
relative error at most `u` (2⁻⁵³ for doubles in range); the contributions themselves are the numbers that the program computes.
-/
namespace Verif.Rounding
open Verif.Eval Verif.Diff Verif.History

variable {C S B H G G' : Type} [Zero G] [Zero G'] [AddCommGroup H]

/-! ## The parametrised program is the program of C12 -/

theorem step_exact {H : Type} [AddCommGroup H] (K : Calc C S B H) (st : St C S H) (op : Op C S) :
    stepW K (fun x v => v + x) st op = step K st op := by
  cases op <;> rfl

theorem run_exact {H : Type} [AddCommGroup H] (K : Calc C S B H) (st : St C S H) (ops : List (Op C S)) :
    runW K (fun x v => v + x) st ops = runOps K st ops := by
  induction ops generalizing st with
  | nil => rfl
  | cons op ops ih =>
    change runW K _ (stepW K _ st op) ops = runOps K (step K st op) ops
    rw [step_exact]
    exact ih _

theorem evalSt_exact {H : Type} [AddCommGroup H] (K : Calc C S B H) (st : St C S H) (stru : S) :
    evalStW K (fun x v => v + x) st stru = evalSt K st stru := rfl

/-! ## Runs that differ only in the arithmetic -/

/-- Equal except for the values, which are related by `R`. -/
structure Rel (R : G → G' → Prop) (a : St C S G) (b : St C S G') : Prop where
  clock : a.clock = b.clock
  pqTick : a.pqTick = b.pqTick
  valTick : a.valTick = b.valTick
  last : a.last = b.last
  cur : a.cur = b.cur
  cfg : a.cfg = b.cfg
  value : R a.value b.value
  stash : R a.stash b.stash
  saved : R a.saved b.saved
  evtype : a.evtype = b.evtype
  used : a.used = b.used
  cpuindex : a.cpuindex = b.cpuindex
  ncpu : a.ncpu = b.ncpu

/-- Two elementary changes keep the relation. -/
def RelFun (R : G → G' → Prop) (f : St C S G → St C S G) (g : St C S G' → St C S G') : Prop :=
  ∀ a b, Rel R a b → Rel R (f a) (g b)

/-- Two programs step by step. -/
abbrev RelProg (R : G → G' → Prop) (p : Prog C S G) (q : Prog C S G') : Prop := List.Forall₂ (RelFun R) p q

section
variable {R : G → G' → Prop} (R0 : R 0 0)

include R0 in
theorem rel_setStru (K : Calc C S B H) (stru : S) : RelFun R (setStruW K stru) (setStruW K stru) := by
  intro a b h
  unfold setStruW
  dsimp only
  rw [← h.cfg]
  split
  · exact ⟨by simp only [h.clock], by simp only [h.clock], h.valTick, h.last, rfl, rfl, R0, h.stash, h.saved, h.evtype, h.used,
      h.cpuindex, h.ncpu⟩
  · exact ⟨h.clock, h.pqTick, h.valTick, h.last, rfl, rfl, R0, h.stash, h.saved, h.evtype, h.used, h.cpuindex, h.ncpu⟩

theorem rel_clickVal : RelFun (C := C) (S := S) R clickValW clickValW := fun _ _ h =>
  ⟨by simp only [clickValW, h.clock], h.pqTick, by simp only [clickValW, h.clock], h.last, h.cur, h.cfg, h.value, h.stash, h.saved,
    h.evtype, h.used, h.cpuindex, h.ncpu⟩

theorem rel_setLast : RelFun (C := C) (S := S) R setLastW setLastW := fun _ _ h =>
  ⟨h.clock, h.pqTick, h.valTick, by simp only [setLastW, h.cur], h.cur, h.cfg, h.value, h.stash, h.saved, h.evtype, h.used,
    h.cpuindex, h.ncpu⟩

theorem rel_setUsed (t : EvType) : RelFun (C := C) (S := S) R (setUsedW t) (setUsedW t) := fun _ _ h =>
  ⟨h.clock, h.pqTick, h.valTick, h.last, h.cur, h.cfg, h.value, h.stash, h.saved, h.evtype, rfl, h.cpuindex, h.ncpu⟩

theorem rel_doStash : RelFun (C := C) (S := S) R doStashW doStashW := fun _ _ h =>
  ⟨h.clock, h.pqTick, h.valTick, h.last, h.cur, h.cfg, h.value, h.value, h.saved, h.evtype, h.used, h.cpuindex, h.ncpu⟩

theorem rel_doRestore : RelFun (C := C) (S := S) R doRestoreW doRestoreW := fun _ _ h =>
  ⟨h.clock, h.pqTick, h.valTick, h.last, h.cur, h.cfg, h.stash, h.stash, h.saved, h.evtype, h.used, h.cpuindex, h.ncpu⟩

theorem rel_doSave : RelFun (C := C) (S := S) R doSaveW doSaveW := fun _ _ h =>
  ⟨h.clock, h.pqTick, h.valTick, h.last, h.cur, h.cfg, h.value, h.stash, h.value, h.evtype, h.used, h.cpuindex, h.ncpu⟩

variable {ad : H → G → G} {ad' : H → G' → G'} (hR : ∀ x v v', R v v' → R (ad x v) (ad' x v'))

include hR in
theorem rel_add (K : Calc C S B H) (t : Contrib B) : RelFun R (addW K ad t) (addW K ad' t) := fun _ _ h =>
  ⟨h.clock, h.pqTick, h.valTick, h.last, h.cur, h.cfg, by
    unfold addW; dsimp only; rw [h.cfg, h.cur]; exact hR _ _ _ h.value,
    h.stash, h.saved, h.evtype, h.used, h.cpuindex, h.ncpu⟩

include hR in
theorem rel_adds (K : Calc C S B H) (ts : List (Contrib B)) : RelProg R (ts.map (addW K ad)) (ts.map (addW K ad')) := by
  induction ts with
  | nil => exact .nil
  | cons t ts ih => exact .cons (rel_add hR K t) ih

theorem rel_append {p p' : Prog C S G} {q q' : Prog C S G'} (h : RelProg R p q) (h' : RelProg R p' q') :
    RelProg R (p ++ p') (q ++ q') := by
  induction h with
  | nil => exact h'
  | cons hd _ ih => exact .cons hd ih

theorem rel_take {p : Prog C S G} {q : Prog C S G'} (h : RelProg R p q) (k : Nat) : RelProg R (p.take k) (q.take k) := by
  induction h generalizing k with
  | nil => simp
  | cons hd _ ih => cases k with
    | zero => exact .nil
    | succ k => exact .cons hd (ih k)

theorem rel_exec {p : Prog C S G} {q : Prog C S G'} (h : RelProg R p q) (a : St C S G) (b : St C S G') (hab : Rel R a b) :
    Rel R (execW p a) (execW q b) := by
  induction h generalizing a b with
  | nil => exact hab
  | cons hd _ ih => exact ih _ _ (hd _ _ hab)

include R0 hR in
theorem rel_basic (K : Calc C S B H) (c : C) (cpu ncpu : Int) (stru : S) :
    RelProg R (basicProgW K ad c cpu ncpu stru) (basicProgW K ad' c cpu ncpu stru) := by
  unfold basicProgW
  exact rel_append (rel_append (.cons (rel_setUsed _) (.cons (rel_setStru R0 K stru) .nil)) (rel_adds hR K _))
    (.cons rel_clickVal .nil)

include R0 hR in
theorem rel_complete (K : Calc C S B H) (c : C) (cpu ncpu : Int) (stru : S) :
    RelProg R (completeProgW K ad c cpu ncpu stru) (completeProgW K ad' c cpu ncpu stru) :=
  rel_append (rel_basic R0 hR K c cpu ncpu stru) (.cons rel_setLast .nil)

include R0 hR in
theorem rel_fast (K : Calc C S B H) (a : St C S G) (b : St C S G') (h : Rel R a b) (s0 stru : S) (d : SD) :
    RelProg R (fastProgW K ad a s0 stru d) (fastProgW K ad' b s0 stru d) := by
  unfold fastProgW
  dsimp only
  rw [(rel_setStru R0 K stru a b h).pqTick, h.cfg, h.cur, h.valTick, h.cpuindex, h.ncpu]
  refine rel_append (rel_append (rel_adds hR K _) (.cons rel_doStash (.cons (rel_setStru R0 K stru) .nil))) ?_
  split
  · exact rel_complete R0 hR K _ _ _ _
  · exact rel_append (rel_append (.cons rel_doRestore .nil) (rel_adds hR K _)) (.cons rel_setLast (.cons rel_clickVal .nil))

theorem rel_choice (K : Calc C S B H) (a : St C S G) (b : St C S G') (h : Rel R a b) (stru : S) :
    fastChoiceW K a stru = fastChoiceW K b stru := by
  unfold fastChoiceW
  rw [h.last, h.pqTick, h.valTick, h.cfg]

include R0 hR in
theorem rel_opt (K : Calc C S B H) (a : St C S G) (b : St C S G') (h : Rel R a b) (stru : S) :
    RelProg R (optProgW K ad a stru) (optProgW K ad' b stru) := by
  unfold optProgW
  rw [rel_choice K a b h stru]
  refine .cons (rel_setUsed _) ?_
  cases fastChoiceW K b stru with
  | none =>
    dsimp only
    rw [h.cfg, h.cpuindex, h.ncpu]
    exact rel_complete R0 hR K _ _ _ _
  | some p => exact rel_fast R0 hR K a b h p.1 stru p.2

include R0 hR in
theorem rel_check (K : Calc C S B H) (a : St C S G) (b : St C S G') (h : Rel R a b) (stru : S) :
    RelProg R (checkProgW K ad a stru) (checkProgW K ad' b stru) := by
  have ho := rel_opt R0 hR K a b h stru
  have he := rel_exec ho a b h
  unfold checkProgW
  dsimp only
  rw [he.used, he.cfg, h.cpuindex, h.ncpu]
  refine rel_append ho ?_
  split
  · exact .nil
  · exact rel_append (rel_append (.cons rel_doSave .nil) (rel_basic R0 hR K _ _ _ _)) (.cons (rel_setUsed _) .nil)

include R0 hR in
theorem rel_evalProg (K : Calc C S B H) (a : St C S G) (b : St C S G') (h : Rel R a b) (stru : S) :
    RelProg R (evalProgW K ad a stru) (evalProgW K ad' b stru) := by
  have hb : RelProg R (basicProgW K ad a.cfg a.cpuindex a.ncpu stru) (basicProgW K ad' b.cfg b.cpuindex b.ncpu stru) := by
    rw [h.cfg, h.cpuindex, h.ncpu]; exact rel_basic R0 hR K _ _ _ _
  unfold evalProgW
  rw [h.evtype]
  cases b.evtype with
  | none => exact hb
  | basic => exact hb
  | optimized => exact rel_opt R0 hR K a b h stru
  | check => exact rel_check R0 hR K a b h stru

include R0 hR in
theorem rel_eval (K : Calc C S B H) (a : St C S G) (b : St C S G') (h : Rel R a b) (stru : S) :
    Rel R (evalStW K ad a stru) (evalStW K ad' b stru) := rel_exec (rel_evalProg R0 hR K a b h stru) a b h

include R0 hR in
theorem rel_step (K : Calc C S B H) (a : St C S G) (b : St C S G') (h : Rel R a b) (op : Op C S) :
    Rel R (stepW K ad a op) (stepW K ad' b op) := by
  cases op with
  | eval stru => exact rel_eval R0 hR K a b h stru
  | evalFail stru k => exact rel_exec (rel_take (rel_evalProg R0 hR K a b h stru) k) a b h
  | setStructure stru => exact rel_setStru R0 K stru a b h
  | configure f clicks =>
    unfold stepW
    dsimp only
    split
    · exact ⟨by simp only [h.clock], by simp only [h.clock], h.valTick, h.last, h.cur, by simp only [h.cfg], h.value, h.stash,
        h.saved, h.evtype, h.used, h.cpuindex, h.ncpu⟩
    · exact ⟨h.clock, h.pqTick, h.valTick, h.last, h.cur, by simp only [h.cfg], h.value, h.stash, h.saved, h.evtype, h.used,
        h.cpuindex, h.ncpu⟩
  | setType t =>
    unfold stepW setTypeW
    dsimp only
    rw [h.evtype]
    split
    · exact h
    · split
      · exact h
      · split
        · exact h
        · exact ⟨h.clock, h.pqTick, h.valTick, rfl, h.cur, h.cfg, R0, h.stash, h.saved, rfl, h.used, h.cpuindex, h.ncpu⟩
  | setupParallel i n =>
    unfold stepW
    dsimp only
    split
    · exact h
    · exact ⟨h.clock, h.pqTick, h.valTick, h.last, h.cur, h.cfg, h.value, h.stash, h.saved, h.evtype, h.used, rfl, rfl⟩

include R0 hR in
theorem rel_run (K : Calc C S B H) (ops : List (Op C S)) (a : St C S G) (b : St C S G') (h : Rel R a b) :
    Rel R (runW K ad a ops) (runW K ad' b ops) := by
  induction ops generalizing a b with
  | nil => exact h
  | cons op ops ih => exact ih _ _ (rel_step R0 hR K a b h op)

include R0 in
theorem rel_init (c : C) (e : S) (i n : Int) : Rel R (initW c e i n) (initW c e i n) :=
  ⟨rfl, rfl, rfl, rfl, rfl, rfl, R0, R0, R0, rfl, rfl, rfl, rfl⟩

end

/-! ## Error of a sum in rounded arithmetic -/

variable {N : Type} [Field N] [LinearOrder N] [IsStrictOrderedRing N]

/-- Specification of the rounding: relative error of every sum at most `u`. -/
def RoundsTo (u : N) (fl : N → N) : Prop := ∀ x, |fl x - x| ≤ u * |x|

/-- One more rounded addition on top of `n` earlier ones. -/
theorem add_error {u : N} {fl : N → N} (hu : 0 ≤ u) (hf : RoundsTo u fl) (n : ℕ) (r v m x : N) (hm : |v| ≤ m)
    (h : |r - v| ≤ ((1 + u) ^ n - 1) * m) :
    |fl (r + x) - (v + x)| ≤ ((1 + u) ^ (n + 1) - 1) * (m + |x|) ∧ |v + x| ≤ m + |x| := by
  have h1 := hf (r + x)
  have hp : 1 ≤ (1 + u) ^ n := one_le_pow₀ (by linarith)
  have hx := abs_nonneg x
  have hm0 : 0 ≤ m := le_trans (abs_nonneg v) hm
  have hvx : |v + x| ≤ m + |x| := (abs_add_le v x).trans (by linarith)
  have hrx : |r + x| ≤ (1 + u) ^ n * m + |x| := by
    have : r + x = (r - v) + (v + x) := by ring
    rw [this]
    refine (abs_add_le _ _).trans ?_
    nlinarith
  refine ⟨?_, hvx⟩
  have e : fl (r + x) - (v + x) = (fl (r + x) - (r + x)) + (r - v) := by ring
  rw [e]
  refine (abs_add_le _ _).trans ?_
  have h2 : u * |r + x| ≤ u * ((1 + u) ^ n * m + |x|) := mul_le_mul_of_nonneg_left hrx hu
  have h3 : ((1 + u) ^ (n + 1) - 1) * (m + |x|)
      = (u * ((1 + u) ^ n * m) + ((1 + u) ^ n - 1) * m)
        + (u * |x| + (((1 + u) ^ n - 1) * |x| + u * (((1 + u) ^ n - 1) * |x|))) := by
    rw [pow_succ]; ring
  have h4 : 0 ≤ ((1 + u) ^ n - 1) * |x| := mul_nonneg (by linarith) hx
  have h5 : 0 ≤ u * (((1 + u) ^ n - 1) * |x|) := mul_nonneg hu h4
  rw [h3]
  nlinarith

/-! ## C69 -/

variable {ι : Type}

/-- The work behind a value: how many contributions were added or subtracted since it was last reset, and entry by entry the sum
of their magnitudes. -/
def count (x : ι → N) (w : ℕ × (ι → N)) : ℕ × (ι → N) := (w.1 + 1, fun k => w.2 k + |x k|)

/-- The rounded and the exact value with the work behind them. -/
def Near (u : N) (r : ι → N) (p : (ι → N) × (ℕ × (ι → N))) : Prop :=
  ∀ k, |r k - p.1 k| ≤ ((1 + u) ^ p.2.1 - 1) * p.2.2 k ∧ |p.1 k| ≤ p.2.2 k

/-- Exact addition and counting side by side. -/
def both (x : ι → N) (p : (ι → N) × (ℕ × (ι → N))) : (ι → N) × (ℕ × (ι → N)) := (p.1 + x, count x p.2)

theorem near_zero (u : N) : Near u (0 : ι → N) 0 := by intro k; simp

theorem near_add {u : N} {fl : N → N} (hu : 0 ≤ u) (hf : RoundsTo u fl) (x v : ι → N) (p : (ι → N) × (ℕ × (ι → N)))
    (h : Near u v p) : Near u (rounded fl x v) (both x p) :=
  fun k => add_error hu hf p.2.1 (v k) (p.1 k) (p.2.2 k) (x k) (h k).2 (h k).1

/-- The work behind the value after a history: the same program, counting. -/
def work (K : Calc C S B (ι → N)) (st : St C S (ℕ × (ι → N))) (ops : List (Op C S)) : ℕ × (ι → N) := (runW K count st ops).value

/-- C69. In any history of calls – full and fast updates, failing evaluations, evaluator switches, any number of jobs – the stored
value of a calculator with rounded additions differs from that of the same calculator with exact additions by at most
`((1+u)^n - 1) m` in every entry, with `n` additions of magnitudes adding up to `m` since the value was last reset. -/
theorem rounding_drift (K : Calc C S B (ι → N)) {u : N} {fl : N → N} (hu : 0 ≤ u) (hf : RoundsTo u fl) (c : C) (e : S)
    (i n : Int) (ops : List (Op C S)) (k : ι) :
    |(runW K (rounded fl) (initW c e i n) ops).value k - (runOps K (init c e i n) ops).value k|
      ≤ ((1 + u) ^ (work K (initW c e i n) ops).1 - 1) * (work K (initW c e i n) ops).2 k := by
  have h1 := rel_run (near_zero u) (fun x v p => near_add hu hf x v p) K ops _ _ (rel_init (near_zero u) c e i n)
  have h2 := rel_run (R := fun (p : (ι → N) × (ℕ × (ι → N))) v => p.1 = v) rfl (ad := both) (ad' := fun x v => v + x)
    (fun x p v h => by rw [← h]; rfl) K ops _ _
    (rel_init (R := fun (p : (ι → N) × (ℕ × (ι → N))) v => p.1 = v) rfl c e i n)
  have h3 := rel_run (R := fun (p : (ι → N) × (ℕ × (ι → N))) w => p.2 = w) rfl (ad := both) (ad' := count)
    (fun x p w h => by rw [← h]; rfl) K ops _ _
    (rel_init (R := fun (p : (ι → N) × (ℕ × (ι → N))) w => p.2 = w) rfl c e i n)
  have h := (h1.value k).1
  rw [h2.value, h3.value, run_exact] at h
  exact h

/-- C69. The rounded value never decides which calculation is done: tickers, structures, settings and the evaluator in use are
those of exact arithmetic. -/
theorem control_unchanged (K : Calc C S B (ι → N)) (fl : N → N) (c : C) (e : S) (i n : Int) (ops : List (Op C S)) :
    Rel (fun _ _ => True) (runW K (rounded fl) (initW c e i n) ops) (runOps K (init c e i n) ops) := by
  have := rel_run (R := fun (_ _ : ι → N) => True) trivial (ad := rounded fl) (ad' := fun x v => v + x)
    (fun _ _ _ _ => trivial) K ops _ _ (rel_init (R := fun (_ _ : ι → N) => True) trivial c e i n)
  rwa [run_exact] at this

theorem runW_eval (K : Calc C S B H) (ad : H → G → G) (st : St C S G) (ops : List (Op C S)) (stru : S) :
    runW K ad st (ops ++ [.eval stru]) = evalStW K ad (runW K ad st ops) stru := by
  unfold runW; rw [List.foldl_append]; rfl

/-- C69. So the value that a (serial) calculator returns after any history covered by C12 deviates from the exact pair sum of the
structure by no more than the drift bound of the work since its last full calculation. -/
theorem optimized_drift (K : Calc C S B (ι → N)) (hK : Lawful K) {u : N} {fl : N → N} (hu : 0 ≤ u) (hf : RoundsTo u fl)
    (c : C) (e : S) (ops : List (Op C S)) (ha : ∀ op ∈ ops, Allowed 1 op)
    (ht : taintAfter K (init c e 0 1) false ops = false) (stru : S) (k : ι) :
    let w := work K (initW c e 0 1) (ops ++ [.eval stru])
    |(runW K (rounded fl) (initW c e 0 1) (ops ++ [.eval stru])).value k
        - basicValue K (evalSt K (runOps K (init c e 0 1) ops) stru).cfg stru k| ≤ ((1 + u) ^ w.1 - 1) * w.2 k := by
  intro w
  have h := rounding_drift K hu hf c e 0 1 (ops ++ [.eval stru]) k
  have hv := history_value_partial K hK 1 (le_refl _) c e ops ha ht stru
  simp only [Finset.range_one, Finset.sum_singleton, Nat.cast_zero, Nat.cast_one] at hv
  have e1 : (runOps K (init c e 0 1) (ops ++ [.eval stru])).value
      = (evalSt K (runOps K (init c e 0 1) ops) stru).value := by
    unfold runOps; rw [List.foldl_append]; rfl
  rw [e1, hv] at h
  exact h

/-! ### Work of one evaluation -/

theorem exec_count (K : Calc C S B (ι → N)) (ts : List (Contrib B)) (st : St C S (ℕ × (ι → N))) :
    (execW (ts.map (addW K count)) st).value
        = (st.value.1 + ts.length, fun k => st.value.2 k
            + (ts.map fun t => |(t.scale • K.con st.cfg st.cur t.i0 t.i1 t.bond) k|).sum) ∧
      (execW (ts.map (addW K count)) st).cfg = st.cfg ∧ (execW (ts.map (addW K count)) st).cur = st.cur := by
  induction ts generalizing st with
  | nil => simp [execW]
  | cons t ts ih =>
    obtain ⟨h1, h2, h3⟩ := ih (addW K count t st)
    refine ⟨?_, h2, h3⟩
    refine Eq.trans h1 ?_
    simp only [addW, count, List.length_cons, List.map_cons, List.sum_cons]
    refine Prod.ext (by omega) ?_
    funext k
    simp only [add_assoc]

/-- C69. A BASIC evaluation does not inherit anything: the work behind its value is the number of pair contributions of the
structure and the sum of their magnitudes, whatever happened before. -/
theorem basic_work (K : Calc C S B (ι → N)) (st : St C S (ℕ × (ι → N))) (hb : st.evtype = .basic) (stru : S) :
    let c' := (K.custom stru st.cfg).1
    let tr := basicTrace (K.rule (K.count stru) st.ncpu) (K.gen c' stru) K.fullSum (K.use c' stru) (K.count stru) st.cpuindex
      st.ncpu
    (evalStW K count st stru).value = (tr.length, fun k => (tr.map fun t => |(t.scale • K.con c' stru t.i0 t.i1 t.bond) k|).sum) := by
  intro c' tr
  have he : evalProgW K count st stru = basicProgW K count st.cfg st.cpuindex st.ncpu stru := by
    unfold evalProgW; rw [hb]
  have e1 : evalStW K count st stru
      = clickValW (execW (tr.map (addW K count)) (setStruW K stru (setUsedW .basic st))) := by
    unfold evalStW; rw [he]; unfold basicProgW execW
    rw [List.foldl_append, List.foldl_append]; rfl
  have hv : ∀ s : St C S (ℕ × (ι → N)), (setStruW K stru s).value = 0 ∧ (setStruW K stru s).cfg = (K.custom stru s.cfg).1 ∧
      (setStruW K stru s).cur = stru := by
    intro s; unfold setStruW; dsimp only; split <;> exact ⟨rfl, rfl, rfl⟩
  obtain ⟨v1, v2, v3⟩ := hv (setUsedW .basic st)
  rw [e1]
  refine (exec_count K tr _).1.trans ?_
  rw [v1, v2, v3]
  refine Prod.ext (by simp) ?_
  funext k
  simp only [Prod.snd_zero, Pi.zero_apply, zero_add]
  rfl

/-! ### Merging -/

/-- C69. Merging the values of `n` jobs deviates from their exact sum by at most `((1+u)^n - 1)` times the sum of their
magnitudes. -/
theorem merge_drift {u : N} {fl : N → N} (hu : 0 ≤ u) (hf : RoundsTo u fl) (vs : List (ι → N)) (k : ι) :
    |mergeR fl vs k - (vs.map fun v => v k).sum| ≤ ((1 + u) ^ vs.length - 1) * (vs.map fun v => |v k|).sum := by
  have key : ∀ (vs : List (ι → N)) (r v : ι → N) (w : ℕ × (ι → N)), Near u r (v, w) →
      |vs.foldl (fun v x => rounded fl x v) r k - (v k + (vs.map fun v => v k).sum)|
        ≤ ((1 + u) ^ (w.1 + vs.length) - 1) * (w.2 k + (vs.map fun v => |v k|).sum) := by
    intro vs
    induction vs with
    | nil => intro r v w h; simpa using (h k).1
    | cons x xs ih =>
      intro r v w h
      have := ih _ _ _ (near_add hu hf x r (v, w) h)
      simp only [count, List.map_cons, List.sum_cons, List.length_cons, List.foldl_cons, Pi.add_apply] at this ⊢
      rw [← add_assoc (v k), ← add_assoc (w.2 k), show w.1 + (xs.length + 1) = w.1 + 1 + xs.length by omega]
      exact this
  have := key vs 0 0 0 (near_zero u)
  simpa [mergeR] using this

theorem abs_list_sum_le {α : Type} (l : List α) (f g h : α → N) (H : ∀ a ∈ l, |f a - g a| ≤ h a) :
    |(l.map f).sum - (l.map g).sum| ≤ (l.map h).sum := by
  induction l with
  | nil => simp
  | cons a l ih =>
    simp only [List.map_cons, List.sum_cons]
    have e : f a + (l.map f).sum - (g a + (l.map g).sum) = (f a - g a) + ((l.map f).sum - (l.map g).sum) := by ring
    rw [e]
    exact (abs_add_le _ _).trans (add_le_add (H a (by simp)) (ih fun b hb => H b (by simp [hb])))

/-- C69. The merged value of a parallel run of `n` jobs after any history covered by C12 is the exact pair sum up to the drift of
the jobs and of the merge. -/
theorem parallel_drift (K : Calc C S B (ι → N)) (hK : Lawful K) {u : N} {fl : N → N} (hu : 0 ≤ u) (hf : RoundsTo u fl)
    (n : Nat) (hn : 1 ≤ n) (c : C) (e : S) (ops : List (Op C S)) (ha : ∀ op ∈ ops, Allowed n op)
    (ht : taintAfter K (init c e 0 (n : Int)) false ops = false) (stru : S) (k : ι) :
    let job : Nat → ι → N := fun j => (runW K (rounded fl) (initW c e (j : Int) (n : Int)) (ops ++ [.eval stru])).value
    let w : Nat → ℕ × (ι → N) := fun j => work K (initW c e (j : Int) (n : Int)) (ops ++ [.eval stru])
    |mergeR fl ((List.range n).map job) k - basicValue K (evalSt K (runOps K (init c e 0 (n : Int)) ops) stru).cfg stru k|
      ≤ ((1 + u) ^ n - 1) * ((List.range n).map fun (j : Nat) => |job j k|).sum
        + ((List.range n).map fun (j : Nat) => ((1 + u) ^ (w j).1 - 1) * (w j).2 k).sum := by
  intro job w
  have hv := history_value_partial K hK n hn c e ops ha ht stru
  have h1 := merge_drift hu hf ((List.range n).map job) k
  simp only [List.map_map, List.length_map, List.length_range] at h1
  have h2 := abs_list_sum_le (List.range n) (fun j => job j k)
    (fun (j : Nat) => (runOps K (init c e (j : Int) (n : Int)) (ops ++ [.eval stru])).value k)
    (fun j => ((1 + u) ^ (w j).1 - 1) * (w j).2 k)
    (fun j _ => rounding_drift K hu hf c e (j : Int) (n : Int) (ops ++ [.eval stru]) k)
  have e1 : ((List.range n).map fun (j : Nat) => (runOps K (init c e (j : Int) (n : Int)) (ops ++ [.eval stru])).value k).sum
      = basicValue K (evalSt K (runOps K (init c e 0 (n : Int)) ops) stru).cfg stru k := by
    rw [← hv, Finset.sum_apply, finset_sum_range]
    congr 1
    apply List.map_congr_left
    intro j _
    unfold runOps; rw [List.foldl_append]; rfl
  rw [e1] at h2
  have e2 : ∀ a b c : N, a - c = (a - b) + (b - c) := by intros; ring
  rw [e2 _ ((List.range n).map fun j => job j k).sum]
  exact (abs_add_le _ _).trans (add_le_add h1 h2)

/-! ### The self-check -/

theorem maxAbs_mem (m : N) (l : List N) : maxAbs m l = m ∨ maxAbs m l ∈ l := by
  induction l generalizing m with
  | nil => exact Or.inl rfl
  | cons x xs ih =>
    unfold maxAbs
    rcases ih (if |m| < |x| then x else m) with h | h
    · split at h
      · rename_i hc; rw [if_pos hc]; exact Or.inr (by rw [h]; simp)
      · rename_i hc; rw [if_neg hc]; exact Or.inl h
    · exact Or.inr (List.mem_cons_of_mem _ h)

theorem checkEps_one (s : N) (hs : 0 ≤ s) (l : List N) : s ≤ checkEps s l := by
  cases l with
  | nil => unfold checkEps; rw [mul_one]
  | cons x xs =>
    unfold checkEps
    calc s = s * 1 := (mul_one s).symm
      _ ≤ _ := mul_le_mul_of_nonneg_left (le_max_right _ _) hs

theorem maxAbs_le (m : N) (l : List N) : |m| ≤ |maxAbs m l| ∧ ∀ x ∈ l, |x| ≤ |maxAbs m l| := by
  induction l generalizing m with
  | nil => exact ⟨le_rfl, fun x h => by cases h⟩
  | cons y ys ih =>
    unfold maxAbs
    obtain ⟨h1, h2⟩ := ih (if |m| < |y| then y else m)
    have hm : |m| ≤ |if |m| < |y| then y else m| ∧ |y| ≤ |if |m| < |y| then y else m| := by
      split
      · rename_i h; exact ⟨h.le, le_rfl⟩
      · rename_i h; exact ⟨le_rfl, not_lt.1 h⟩
    refine ⟨hm.1.trans h1, ?_⟩
    intro x hx
    rcases List.mem_cons.1 hx with rfl | hx
    · exact hm.2.trans h1
    · exact h2 x hx

theorem allclose_iff (e : N) (a b : List N) :
    allclose e a b = true ↔ a.length = b.length ∧ ∀ p ∈ a.zip b, |p.1 - p.2| ≤ e := by
  induction a generalizing b with
  | nil => cases b <;> simp [allclose]
  | cons x xs ih =>
    cases b with
    | nil => simp [allclose]
    | cons y ys =>
      unfold allclose
      rw [Bool.and_eq_true, decide_eq_true_eq, ih ys]
      simp only [List.length_cons, List.zip_cons_cons, List.forall_mem_cons, Nat.add_right_cancel_iff]
      tauto

/-- C69. The comparison of the CHECK evaluator accepts results of equal length whose entries differ by no more than
`sqrt(DBL_EPSILON)`, so small drifts never make it throw; and when it accepts, entries differ by at most that number times the
larger of 1 and the largest entry. -/
theorem compare_spec (s : N) (hs : 0 ≤ s) (a b : List N) :
    (a.length = b.length → (∀ p ∈ a.zip b, |p.1 - p.2| ≤ s) → compareR s a b = true) ∧
    (compareR s a b = true → a.length = b.length ∧ ∀ p ∈ a.zip b, |p.1 - p.2| ≤ checkEps s a) := by
  unfold compareR
  exact ⟨fun hl h => (allclose_iff _ _ _).2 ⟨hl, fun p hp => (h p hp).trans (checkEps_one s hs a)⟩,
    fun h => (allclose_iff _ _ _).1 h⟩

/-- C69. Exactly what the comparison accepts, for saved results that are not empty: some saved entry `M` has the largest magnitude, and
all entries differ by no more than `sqrt(DBL_EPSILON) max(M, 1)`. -/
theorem compare_iff (s : N) (a b : List N) (ha : a ≠ []) : ∃ M ∈ a, (∀ x ∈ a, |x| ≤ |M|) ∧
    (compareR s a b = true ↔ a.length = b.length ∧ ∀ p ∈ a.zip b, |p.1 - p.2| ≤ s * max M 1) := by
  cases a with
  | nil => exact absurd rfl ha
  | cons x xs =>
    refine ⟨maxAbs x xs, ?_, ?_, allclose_iff _ _ _⟩
    · rcases maxAbs_mem x xs with h | h
      · rw [h]; exact List.mem_cons_self ..
      · exact List.mem_cons_of_mem _ h
    · intro y hy
      rcases List.mem_cons.1 hy with rfl | hy
      · exact (maxAbs_le y xs).1
      · exact (maxAbs_le x xs).2 y hy

/-- The tolerance scales with the entry of largest magnitude only if that entry is positive: the same relative difference is
accepted for 2^40 and rejected for -2^40 (`max(*smx, 1.0)` misses an absolute value). -/
theorem check_negative_bug :
    compareR (1 / 2 ^ 26 : ℚ) [2 ^ 40] [2 ^ 40 + 1 / 2 ^ 12] = true ∧
    compareR (1 / 2 ^ 26 : ℚ) [-2 ^ 40] [-2 ^ 40 + 1 / 2 ^ 12] = false := by decide +kernel

/-! ### An example, and drift that stays -/

/-- A rounding with relative error 1/4: numbers from 16 are rounded down to multiples of 4. -/
def coarse (x : ℚ) : ℚ := if 16 ≤ x then 4 * (x / 4).floor else x

theorem coarse_rounds : RoundsTo (1 / 4) coarse := by
  intro x
  unfold coarse
  split
  · rename_i h
    have h1 : ((x / 4).floor : ℚ) ≤ x / 4 := Rat.floor_le _
    have h2 : x / 4 < (x / 4).floor + 1 := by exact_mod_cast Rat.lt_floor_add_one (x / 4)
    rw [abs_of_nonpos (by linarith), abs_of_pos (by linarith)]
    linarith
  · rename_i h
    rw [sub_self, abs_zero]
    positivity

/-- The example calculator: ordered pairs of different atoms contribute the product of their occupancies. -/
def wBonds (i j : Nat) (a b : Option Atom) : List ℚ :=
  match a, b with
  | some a, some b => if i ≠ j then [a.occupancy * b.occupancy] else []
  | _, _ => []

/-- See `wBonds`. -/
def wCalc : Calc Unit (List Atom) ℚ (Unit → ℚ) where
  fullSum := false
  fixedIdx := false
  canStash := true
  hasPairMask _ := false
  rule := chopOuterRule
  count a := a.length
  gen _ a i sel := sel.flatMap fun j => (wBonds i j a[i]? a[j]?).map fun b => (j, b)
  use _ _ _ _ := true
  con _ _ _ _ b := fun _ => b
  custom _ c := (c, false)
  diff := atomicDiff exSorter false true
  close x y := decide (x () = y ())

theorem wCalc_lawful : Lawful wCalc := by
  apply atomic_lawful wCalc exSorter exSorter_spec (fun _ _ => rfl) (fun _ => rfl) (fun _ => wBonds)
    (fun _ _ _ _ _ b _ => b) (fun _ _ _ _ _ => true)
  · intro c a i sel; exact List.Perm.refl _
  · intro c a i j b; rfl
  · intro c a i j; rfl
  · intro _ c i j a b
    refine ⟨rfl, ?_⟩
    have : wBonds i j a b = wBonds j i b a := by
      unfold wBonds
      cases a <;> cases b <;> simp only [ne_eq, eq_comm, mul_comm]
    rw [this]
  · intro c _ i j i' j' a b h
    refine ⟨rfl, ?_, rfl⟩
    unfold wBonds
    cases a <;> cases b <;> simp only [ne_eq, h]
  · intro _ _ _; rfl
  · intro v; simp [wCalc]

/-- An atom of occupancy `o` at `x`. -/
def wAtom (x o : ℚ) : Atom := { exAtom "C" x with occupancy := o }

def heavy : List Atom := [wAtom 0 1, wAtom 1 1, wAtom 2 1, wAtom 3 32]
def light : List Atom := [wAtom 0 1, wAtom 1 1, wAtom 2 1, wAtom 3 1]

/-- C69. Rounding errors made with a heavy atom stay after the atom is gone: the fast update gives 10, a full calculation in the
same arithmetic makes no error at all and gives 12. -/
theorem drift_stays :
    (runW wCalc (rounded coarse) (initW () [] 0 1) [.setType .optimized, .eval heavy, .eval light]).value () = 10 ∧
    (runW wCalc (rounded coarse) (initW () [] 0 1) [.setType .optimized, .eval light]).value () = 12 ∧
    (runOps wCalc (init () [] 0 1) [.setType .optimized, .eval heavy, .eval light]).value () = 12 := by decide +kernel

/-- The work behind that value: 6 pairs added, 3 removed and 3 added, of magnitudes 198 + 192 + 6. -/
example : work wCalc (initW () [] 0 1) [.setType .optimized, .eval heavy, .eval light] = (12, fun _ => 396) := by
  refine Prod.ext (by decide +kernel) ?_
  funext k
  have : (work wCalc (initW () [] 0 1) [.setType .optimized, .eval heavy, .eval light]).2 () = 396 := by decide +kernel
  exact this

example : (∀ op ∈ ([.setType .optimized, .eval heavy] : List (Op Unit (List Atom))), Allowed 1 op) ∧
    taintAfter wCalc (init () [] 0 1) false [.setType .optimized, .eval heavy] = false := by
  refine ⟨?_, by decide +kernel⟩
  intro op h
  simp only [List.mem_cons, List.not_mem_nil, or_false] at h
  rcases h with rfl | rfl <;> simp [Allowed]

end Verif.Rounding
