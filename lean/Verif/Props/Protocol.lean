import Verif.Model.Protocol
import Mathlib.Algebra.BigOperators.Group.Finset.Basic
import Mathlib.Algebra.BigOperators.Group.List.Basic
import Mathlib.Data.List.GetD
import Mathlib.Tactic.Ring
import Mathlib.Tactic.Common
/-!
Properties of the merge protocol (C38) and of evaluator switching (C39).
-/
namespace Verif.Protocol

section Merge
variable {R : Type} [AddCommMonoid R]

/-- **C38**: a call that throws (surplus part, or part of another size) leaves the collected value,
the count of parts and the finishing state as they were; a surplus part is a runtime error, a part of
another size an invalid argument. -/
theorem merge_error (m : Merge R) (p : List R) (ncpu : Int) :
    ((mergeParallelData m p ncpu).err ≠ none → (mergeParallelData m p ncpu).st = m) ∧
    ((mergeParallelData m p ncpu).err = some .runtimeError ↔ ncpu ≤ m.count) ∧
    ((mergeParallelData m p ncpu).err = some .invalidArgument ↔
      m.count < ncpu ∧ p.length ≠ m.value.length) := by
  unfold mergeParallelData executeMerge
  by_cases h1 : m.count ≥ ncpu
  · rw [if_pos h1]
    refine ⟨fun _ => rfl, ⟨fun _ => h1, fun _ => rfl⟩, ⟨fun h => (by cases h), ?_⟩⟩
    rintro ⟨h, _⟩; exact absurd h1 (by omega)
  · rw [if_neg h1]
    by_cases h2 : p.length ≠ m.value.length
    · rw [if_pos h2]
      exact ⟨fun _ => rfl, ⟨fun h => (by cases h), fun h => absurd h h1⟩,
        ⟨fun _ => ⟨by omega, h2⟩, fun _ => rfl⟩⟩
    · rw [if_neg h2]
      exact ⟨fun h => absurd rfl h, ⟨fun h => (by cases h), fun h => absurd h h1⟩,
        ⟨fun h => (by cases h), fun h => absurd h.2 h2⟩⟩

/-- **C38**: an accepted part is added element-wise, the count grows by one, and `finishValue` is
called exactly when this was part number `ncpu`. -/
theorem merge_ok (m : Merge R) (p : List R) (ncpu : Int) (hc : m.count < ncpu)
    (hl : p.length = m.value.length) :
    (mergeParallelData m p ncpu).err = none ∧
    (mergeParallelData m p ncpu).st.value.length = m.value.length ∧
    (∀ i, i < m.value.length →
      (mergeParallelData m p ncpu).st.value.getD i 0 = m.value.getD i 0 + p.getD i 0) ∧
    (mergeParallelData m p ncpu).st.count = m.count + 1 ∧
    (mergeParallelData m p ncpu).st.finished
      = m.finished + if m.count + 1 = ncpu then 1 else 0 := by
  have h1 : ¬ m.count ≥ ncpu := by omega
  unfold mergeParallelData executeMerge
  rw [if_neg h1, if_neg (not_not.2 hl)]
  have hlen : (List.zipWith (· + ·) m.value p).length = m.value.length := by
    rw [List.length_zipWith, hl, Nat.min_self]
  have hget : ∀ i, i < m.value.length → (List.zipWith (· + ·) m.value p).getD i 0
      = m.value.getD i 0 + p.getD i 0 := by
    intro i hi
    rw [List.getD_eq_getElem _ _ (by omega), List.getElem_zipWith, List.getD_eq_getElem _ _ hi,
      List.getD_eq_getElem _ _ (by omega)]
  by_cases he : m.count + 1 = ncpu
  · simp only [if_pos he]
    exact ⟨trivial, hlen, hget, trivial, trivial⟩
  · simp only [if_neg he]
    exact ⟨trivial, hlen, hget, trivial, rfl⟩

/-- **C38**, whole run: from a reset calculator, merging exactly `ncpu` parts of the right size
succeeds, gives the element-wise sum of the parts and finishes exactly once. -/
theorem merge_all_ok (m0 : Merge R) (parts : List (List R))
    (hl : ∀ p ∈ parts, p.length = m0.value.length) :
    let out := mergeAll (resetValue m0) (parts.length : Int) parts
    out.err = none ∧ out.st.value.length = m0.value.length ∧
    (∀ i, i < m0.value.length → out.st.value.getD i 0 = (parts.map fun p => p.getD i 0).sum) ∧
    out.st.count = parts.length ∧
    out.st.finished = m0.finished + if parts = [] then 0 else 1 := by
  -- general statement for a partially merged calculator
  have key : ∀ (ps : List (List R)) (m : Merge R) (n : Int), (∀ p ∈ ps, p.length = m.value.length) →
      m.count + ps.length = n →
      (mergeAll m n ps).err = none ∧ (mergeAll m n ps).st.value.length = m.value.length ∧
      (∀ i, i < m.value.length → (mergeAll m n ps).st.value.getD i 0
        = m.value.getD i 0 + (ps.map fun p => p.getD i 0).sum) ∧
      (mergeAll m n ps).st.count = n ∧
      (mergeAll m n ps).st.finished = m.finished + if ps = [] then 0 else 1 := by
    intro ps
    induction ps with
    | nil =>
      intro m n _ hn
      simp only [List.length_nil, Nat.cast_zero, add_zero] at hn
      exact ⟨rfl, rfl, by simp [mergeAll], hn, rfl⟩
    | cons p ps ih =>
      intro m n hp hn
      simp only [List.length_cons, Nat.cast_add, Nat.cast_one] at hn
      obtain ⟨o1, o2, o3, o4, o5⟩ := merge_ok m p n (by omega) (hp p (by simp))
      have e : mergeAll m n (p :: ps) = mergeAll (mergeParallelData m p n).st n ps := by
        rw [mergeAll]
        generalize mergeParallelData m p n = o at o1
        obtain ⟨st, err⟩ := o
        simp only at o1
        subst o1
        rfl
      rw [e]
      obtain ⟨i1, i2, i3, i4, i5⟩ := ih (mergeParallelData m p n).st n
        (fun q hq => by rw [o2]; exact hp q (by simp [hq])) (by rw [o4]; omega)
      refine ⟨i1, i2.trans o2, ?_, i4, ?_⟩
      · intro i hi
        rw [i3 i (by rw [o2]; exact hi), o3 i hi, List.map_cons, List.sum_cons, add_assoc]
      · rw [i5, o5]
        simp only [reduceCtorEq, if_false]
        by_cases he : ps = []
        · subst he
          simp only [List.length_nil, Nat.cast_zero, zero_add] at hn
          simp [hn]
        · have : m.count + 1 ≠ n := by
            have : 0 < ps.length := List.length_pos_iff.2 he
            omega
          simp [he, this]
  intro out
  obtain ⟨k1, k2, k3, k4, k5⟩ := key parts (resetValue m0) (parts.length : Int)
    (fun p hp => by rw [hl p hp]; simp [resetValue]) (by simp [resetValue])
  have hlen : (resetValue m0).value.length = m0.value.length := by simp [resetValue]
  refine ⟨k1, k2.trans hlen, ?_, k4, k5⟩
  intro i hi
  rw [k3 i (by rw [hlen]; exact hi)]
  have : (resetValue m0).value.getD i 0 = 0 := by
    rw [List.getD_eq_getElem _ _ (by rw [hlen]; exact hi)]
    simp [resetValue]
  rw [this, zero_add]

/-- **C38**: what the calculators of a parallel run send is their whole value, so that the merged value is the sum of their values. -/
theorem gather_values (m0 : Merge R) (ms : List (Merge R)) (hl : ∀ m ∈ ms, m.value.length = m0.value.length) :
    let out := mergeAll (resetValue m0) (ms.length : Int) (ms.map getParallelData)
    out.err = none ∧ out.st.value.length = m0.value.length ∧
    ∀ i, i < m0.value.length → out.st.value.getD i 0 = (ms.map fun m => m.value.getD i 0).sum := by
  have h := merge_all_ok m0 (ms.map getParallelData) fun p hp => by
    obtain ⟨m, hm, rfl⟩ := List.mem_map.1 hp
    exact hl m hm
  simp only [List.length_map, List.map_map] at h
  exact ⟨h.1, h.2.1, h.2.2.1⟩

/-- **C38**: the merged value does not depend on the order in which the parts arrive. -/
theorem merge_order (m0 : Merge R) (parts parts' : List (List R)) (hp : parts.Perm parts')
    (hl : ∀ p ∈ parts, p.length = m0.value.length) :
    (mergeAll (resetValue m0) (parts.length : Int) parts).st.value
      = (mergeAll (resetValue m0) (parts'.length : Int) parts').st.value := by
  obtain ⟨_, a2, a3, _⟩ := merge_all_ok m0 parts hl
  obtain ⟨_, b2, b3, _⟩ := merge_all_ok m0 parts' fun p h => hl p (hp.symm.subset h)
  apply List.ext_getElem (a2.trans b2.symm)
  intro i h1 h2
  have h3 := a3 i (by rw [← a2]; exact h1)
  have h4 := b3 i (by rw [← b2]; exact h2)
  rw [List.getD_eq_getElem _ _ h1] at h3
  rw [List.getD_eq_getElem _ _ h2] at h4
  rw [h3, h4]
  exact (hp.map _).sum_eq

/-- **C38**: after a complete merge any further part is refused and nothing changes. -/
theorem merge_surplus (m0 : Merge R) (parts : List (List R)) (extra : List R)
    (hl : ∀ p ∈ parts, p.length = m0.value.length) :
    let m := (mergeAll (resetValue m0) (parts.length : Int) parts).st
    (mergeParallelData m extra (parts.length : Int)).err = some .runtimeError ∧
    (mergeParallelData m extra (parts.length : Int)).st = m := by
  intro m
  obtain ⟨_, _, _, a4, _⟩ := merge_all_ok m0 parts hl
  have he := (merge_error m extra (parts.length : Int)).2.1.2 (le_of_eq a4.symm)
  exact ⟨he, (merge_error m extra _).1 (by rw [he]; simp)⟩

example : (mergeAll (resetValue ⟨[7, 7], 3, 0⟩) 2 [[1, 2], [10, 20]] : Out (Merge Int))
    = ⟨⟨[11, 22], 2, 1⟩, none⟩ := by rfl
example : (mergeParallelData ⟨[7, 7], 0, 0⟩ [1] 2 : Out (Merge Int))
    = ⟨⟨[7, 7], 0, 0⟩, some .invalidArgument⟩ := by rfl

end Merge

/-! ## C39 -/

/-- **C39**: a rejected switch leaves the calculator (evaluator, value, merge count) unchanged, and it
is always an invalid-argument exception. -/
theorem switch_error (q : PQ) (t : Int) :
    ((setEvaluatorType q t).err ≠ none → (setEvaluatorType q t).st = q ∧
      (setEvaluatorType q t).err = some .invalidArgument) := by
  unfold setEvaluatorType
  by_cases h : q.evaluator.map Evaluator.type = some t
  · simp [h]
  · simp only [h, if_false]
    cases hc : createPQEvaluator t q.evaluator with
    | error e =>
      simp only
      intro _
      refine ⟨trivial, ?_⟩
      unfold createPQEvaluator at hc
      split at hc
      · split at hc <;> simp at hc
      · cases hc; rfl
    | ok e =>
      simp only
      cases validate e q with
      | some _ => intro _; exact ⟨rfl, rfl⟩
      | none => intro h; exact absurd rfl h

/-- **C39**: for a calculator with an evaluator a switch is rejected exactly when the type is not
BASIC, OPTIMIZED or CHECK, or is a fast type and the class has no partial-value support — unless it is
the type already in use, which is always accepted without any effect. -/
theorem switch_accepts (q : PQ) (e : Evaluator) (he : q.evaluator = some e) (t : Int) :
    ((setEvaluatorType q t).err = none ↔ e.type = t ∨ t = tBasic ∨
      ((t = tOptimized ∨ t = tCheck) ∧ q.canStash = true)) ∧
    (e.type = t → (setEvaluatorType q t).st = q) := by
  unfold setEvaluatorType createPQEvaluator validate
  rw [he]
  simp only [Option.map_some, Option.some.injEq]
  by_cases h : e.type = t
  · simp [h]
  · simp only [h, if_false, false_or]
    refine ⟨?_, by intro hh; exact hh.elim⟩
    by_cases hb : t = tBasic
    · subst hb; simp
    · by_cases hf : t = tOptimized ∨ t = tCheck
      · cases hs : q.canStash
        · rcases hf with rfl | rfl <;> simp
        · rcases hf with rfl | rfl <;> simp
      · push Not at hf
        simp [hb, hf]

/-- **C39**: a successful switch keeps the flags, the CPU assignment, the value ticker and the type
last used; it sets the requested type; and a real change resets the value and drops the structure
that fast updates start from. -/
theorem switch_keeps (q : PQ) (e : Evaluator) (he : q.evaluator = some e) (t : Int)
    (hok : (setEvaluatorType q t).err = none) :
    ∃ e', (setEvaluatorType q t).st.evaluator = some e' ∧ e'.type = t ∧ e'.flags = e.flags ∧
      e'.cpuindex = e.cpuindex ∧ e'.ncpu = e.ncpu ∧ e'.valTick = e.valTick ∧ e'.used = e.used ∧
      (e.type ≠ t → e'.last = none ∧ (setEvaluatorType q t).st.merged = 0 ∧
        (setEvaluatorType q t).st.value = List.replicate q.value.length 0) := by
  unfold setEvaluatorType at hok ⊢
  rw [he] at hok ⊢
  by_cases h : e.type = t
  · simp only [Option.map_some, h, if_true]
    exact ⟨e, he, h, rfl, rfl, rfl, rfl, rfl, fun hh => absurd rfl hh⟩
  · have h' : ¬ (Option.map Evaluator.type (some e) = some t) := by simpa using h
    simp only [h', if_false] at hok ⊢
    unfold createPQEvaluator at hok ⊢
    by_cases ht : t = tBasic ∨ t = tOptimized ∨ t = tCheck
    · simp only [ht, if_true] at hok ⊢
      generalize hv : validate ⟨t, e.flags, e.cpuindex, e.ncpu, e.valTick, e.used, none⟩ q = v at hok ⊢
      cases v with
      | some x => simp at hok
      | none =>
        exact ⟨_, rfl, rfl, rfl, rfl, rfl, rfl, rfl, fun _ => ⟨rfl, rfl, by simp⟩⟩
    · simp [ht] at hok

/-- **C39**: the reported type is that of the evaluator in place, 0 as long as there is none; from there any accepted call is reported. -/
theorem reported_type (q : PQ) :
    (q.evaluator = none → getEvaluatorType q = 0) ∧ (∀ e, q.evaluator = some e → getEvaluatorType q = e.type) ∧
    ∀ t, (q.evaluator = none → (setEvaluatorType q t).err = none → getEvaluatorType (setEvaluatorType q t).st = t) := by
  refine ⟨fun h => by simp [getEvaluatorType, h, tNone], fun e h => by simp [getEvaluatorType, h], fun t h hok => ?_⟩
  unfold setEvaluatorType at hok ⊢
  rw [h] at hok ⊢
  simp only [Option.map_none, reduceCtorEq, if_false] at hok ⊢
  unfold createPQEvaluator at hok ⊢
  by_cases ht : t = tBasic ∨ t = tOptimized ∨ t = tCheck
  · simp only [ht, if_true] at hok ⊢
    generalize hv : validate ⟨t, 0, 0, 1, 0, tNone, none⟩ q = v at hok ⊢
    cases v with
    | some x => simp at hok
    | none => rfl
  · simp [ht] at hok

/-- **C39**, over any sequence of switches of a new calculator: the reported type is that of the last
successful call (BASIC if there was none). -/
theorem switch_history (canStash : Bool) (n : Nat) (ts : List Int) :
    getEvaluatorType (switchAll (newPQ canStash n) ts)
      = ((ts.filter fun t => decide (t = tBasic) ||
          (canStash && (decide (t = tOptimized) || decide (t = tCheck)))).getLast?).getD tBasic := by
  have key : ∀ (ts : List Int) (q : PQ) (e : Evaluator), q.evaluator = some e → q.canStash = canStash →
      (e.type = tBasic ∨ (canStash = true ∧ (e.type = tOptimized ∨ e.type = tCheck))) →
      getEvaluatorType (switchAll q ts)
        = ((ts.filter fun t => decide (t = tBasic) ||
          (canStash && (decide (t = tOptimized) || decide (t = tCheck)))).getLast?).getD e.type := by
    intro ts
    induction ts with
    | nil => intro q e he _ _; simp [switchAll, getEvaluatorType, he]
    | cons t ts ih =>
      intro q e he hs hty
      rw [switchAll]
      have hacc := (switch_accepts q e he t).1
      rw [hs] at hacc
      by_cases hp : (decide (t = tBasic) ||
          (canStash && (decide (t = tOptimized) || decide (t = tCheck)))) = true
      · have hok : (setEvaluatorType q t).err = none := by
          rw [hacc]; right
          simp only [Bool.or_eq_true, decide_eq_true_eq, Bool.and_eq_true] at hp
          rcases hp with h | ⟨h1, h2⟩
          · exact Or.inl h
          · exact Or.inr ⟨h2, h1⟩
        obtain ⟨e', h1, h2, _⟩ := switch_keeps q e he t hok
        have hcs : (setEvaluatorType q t).st.canStash = canStash := by
          unfold setEvaluatorType
          split
          · exact hs
          · split
            · exact hs
            · split <;> exact hs
        rw [ih _ e' h1 hcs]
        · rw [List.filter_cons, if_pos hp, List.getLast?_cons, h2]
          simp
        · rw [h2]
          simp only [Bool.or_eq_true, decide_eq_true_eq, Bool.and_eq_true] at hp
          exact hp
      · have hst : (setEvaluatorType q t).st = q := by
          by_cases hok : (setEvaluatorType q t).err = none
          · rw [hacc] at hok
            apply (switch_accepts q e he t).2
            rcases hok with h | h | ⟨h1, h2⟩
            · exact h
            · exact absurd (by simp [h]) hp
            · exact absurd (by rcases h1 with h | h <;> simp [h, h2]) hp
          · exact (switch_error q t hok).1
        rw [hst, List.filter_cons_of_neg (by simpa using hp)]
        exact ih q e he hs hty
  have h0 : (newPQ canStash n).evaluator = some ⟨tBasic, 0, 0, 1, 0, tNone, none⟩ := rfl
  exact key ts _ _ h0 rfl (Or.inl rfl)

example : getEvaluatorType (switchAll (newPQ true 3) [2, 7, 3, 0]) = 3 ∧
    getEvaluatorType (switchAll (newPQ false 3) [2, 3]) = 1 := by decide

/-- **C39**: flags are independent switches: setting one is read back and leaves flags with other
bits alone. -/
theorem flag_read_back (e : Evaluator) (f g : BitVec 32) (hf : f ≠ 0) (hfg : f &&& g = 0) (v : Bool) :
    getFlag (setFlag e f v) f = v ∧ getFlag (setFlag e f v) g = getFlag e g := by
  have hbit : ∀ i, i < 32 → ¬ (f.getLsbD i = true ∧ g.getLsbD i = true) := by
    intro i _ ⟨h1, h2⟩
    have := congrArg (fun x => x.getLsbD i) hfg
    simp [h1, h2] at this
  have hb : ∀ i, i < 32 → (f.getLsbD i && g.getLsbD i) = false := by
    intro i hi
    have := hbit i hi
    cases h1 : f.getLsbD i <;> cases h2 : g.getLsbD i <;> simp_all
  unfold setFlag getFlag
  cases v with
  | true =>
    simp only [if_true]
    constructor
    · have : (e.flags ||| f) &&& f = f := by
        apply BitVec.eq_of_getLsbD_eq
        intro i hi
        simp only [BitVec.getLsbD_and, BitVec.getLsbD_or]
        cases e.flags.getLsbD i <;> cases f.getLsbD i <;> rfl
      rw [this]; simpa using hf
    · have : (e.flags ||| f) &&& g = e.flags &&& g := by
        apply BitVec.eq_of_getLsbD_eq
        intro i hi
        have := hb i hi
        simp only [BitVec.getLsbD_and, BitVec.getLsbD_or]
        revert this
        cases e.flags.getLsbD i <;> cases f.getLsbD i <;> cases g.getLsbD i <;> simp
      rw [this]
  | false =>
    simp only [Bool.false_eq_true, if_false]
    constructor
    · have : (e.flags &&& ~~~f) &&& f = 0 := by
        apply BitVec.eq_of_getLsbD_eq
        intro i hi
        simp only [BitVec.getLsbD_and, BitVec.getLsbD_not, hi, decide_true, Bool.true_and]
        cases e.flags.getLsbD i <;> cases f.getLsbD i <;> simp
      simp [this]
    · have : (e.flags &&& ~~~f) &&& g = e.flags &&& g := by
        apply BitVec.eq_of_getLsbD_eq
        intro i hi
        have := hb i hi
        simp only [BitVec.getLsbD_and, BitVec.getLsbD_not, hi, decide_true, Bool.true_and]
        revert this
        cases e.flags.getLsbD i <;> cases f.getLsbD i <;> cases g.getLsbD i <;> simp
      rw [this]

example : USEFULLSUM ≠ 0 ∧ FIXEDSITEINDEX ≠ 0 ∧ USEFULLSUM &&& FIXEDSITEINDEX = 0 := by decide

/-- **C39**: the CPU assignment is rejected exactly for fewer than one CPU, without effect. -/
theorem setup_parallel (e : Evaluator) (i n : Int) :
    ((setupParallelRun e i n).err = none ↔ 1 ≤ n) ∧
    ((setupParallelRun e i n).err ≠ none → (setupParallelRun e i n).st = e) ∧
    (1 ≤ n → (setupParallelRun e i n).st = { e with cpuindex := i, ncpu := n }) := by
  unfold setupParallelRun
  by_cases h : n < 1
  · rw [if_pos h]
    exact ⟨⟨fun hh => (by cases hh), fun hh => absurd hh (by omega)⟩, fun _ => rfl,
      fun hh => absurd hh (by omega)⟩
  · rw [if_neg h]
    exact ⟨⟨fun _ => by omega, fun _ => rfl⟩, fun hh => absurd rfl hh, fun _ => rfl⟩

end Verif.Protocol
