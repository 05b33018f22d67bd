import Verif.Model.Threads
import Mathlib.Tactic.Linarith
import Mathlib.Tactic.Ring
import Mathlib.Tactic.Push
import Mathlib.Tactic.ByContra
/-! C105: clicks of tickers from several threads. -/
namespace Verif.Threads

/-! ### Specification -/

/-- The increments of the counter are not interrupted: after the load of a thread the next step is its store. -/
def Uninterrupted : List Ev → Prop
  | [] => True
  | .load i _ :: .store j :: es => i = j ∧ Uninterrupted es
  | .load _ _ :: _ => False
  | .store _ :: es => Uninterrupted es
  | .copy _ :: es => Uninterrupted es
  | .update _ _ _ :: es => Uninterrupted es

/-- The calls are made one after the other: after a load come the store and the copy of the same thread. -/
def Serial : List Ev → Prop
  | [] => True
  | .load i _ :: .store j :: .copy l :: es => i = j ∧ i = l ∧ Serial es
  | .update _ _ _ :: es => Serial es
  | _ => False

/-- No thread is between load and store. -/
def Settled (w : World) : Prop := ∀ i k v, w.pc i ≠ .loaded k v

theorem run_append (w : World) (a b : List Ev) : run w (a ++ b) = run (run w a) b := List.foldl_append ..

/-! ### Uninterrupted increments -/

theorem settled_step (w : World) (h : Settled w) (e : Ev) (he : ∀ i k, e ≠ .load i k) : Settled (step w e) ∧ w.g ≤ (step w e).g ∧
    ((∀ j, w.ts j ≤ w.g) → ∀ j, (step w e).ts j ≤ (step w e).g) := by
  cases e with
  | load i k => exact absurd rfl (he i k)
  | store i =>
    unfold step
    dsimp only
    split
    · rename_i k v hk
      exact absurd hk (h i k v)
    · exact ⟨h, le_refl _, id⟩
  | copy i =>
    unfold step
    dsimp only
    split
    · refine ⟨fun j k v => ?_, le_refl _, fun ht j => ?_⟩
      · dsimp only
        by_cases hj : j = i
        · subst hj
          rw [Function.update_self]
          exact fun h => nomatch h
        · rw [Function.update_of_ne hj]
          exact h j k v
      · rename_i k hk
        dsimp only
        by_cases hj : j = k
        · subst hj
          rw [Function.update_self]
        · rw [Function.update_of_ne hj]
          exact ht j
    · exact ⟨h, le_refl _, id⟩
  | update i k j =>
    unfold step
    dsimp only
    split
    · refine ⟨h, le_refl _, fun ht l => ?_⟩
      dsimp only
      by_cases hl : l = k
      · subst hl
        rw [Function.update_self]
        exact max_le (ht _) (ht _)
      · rw [Function.update_of_ne hl]
        exact ht l
    · exact ⟨h, le_refl _, id⟩

theorem settled_pair (w : World) (h : Settled w) (i k : ℕ) : Settled (step (step w (.load i k)) (.store i)) ∧ w.g ≤ (step (step w (.load i k)) (.store i)).g ∧
    (step (step w (.load i k)) (.store i)).ts = w.ts ∧
    (w.pc i = .idle → (step (step w (.load i k)) (.store i)).g = w.g + 1 ∧ (step (step w (.load i k)) (.store i)).pc i = .stored k) := by
  cases hp : w.pc i with
  | idle =>
    have e : step (step w (.load i k)) (.store i) = ⟨w.g + 1, w.ts, Function.update (Function.update w.pc i (.loaded k w.g)) i (.stored k)⟩ := by
      unfold step
      simp only [hp, Function.update_self]
    rw [e]
    refine ⟨fun j l v => ?_, by dsimp only; linarith, rfl, fun _ => ⟨rfl, Function.update_self ..⟩⟩
    dsimp only
    rw [Function.update_idem]
    by_cases hj : j = i
    · subst hj
      rw [Function.update_self]
      exact fun h => nomatch h
    · rw [Function.update_of_ne hj]
      exact h j l v
  | loaded a v => exact absurd hp (h i a v)
  | stored a =>
    have e : step (step w (.load i k)) (.store i) = w := by
      unfold step
      simp only [hp]
    rw [e]
    exact ⟨h, le_refl _, rfl, fun h => nomatch h⟩

theorem uninterrupted_inv : ∀ (es : List Ev) (w : World), Uninterrupted es → Settled w → (∀ j, w.ts j ≤ w.g) →
    Settled (run w es) ∧ w.g ≤ (run w es).g ∧ ∀ j, (run w es).ts j ≤ (run w es).g
  | [], w, _, h, ht => ⟨h, le_refl _, ht⟩
  | .load i k :: .store j :: es, w, hu, h, ht => by
    obtain ⟨rfl, hu⟩ := hu
    obtain ⟨a1, a2, a3, -⟩ := settled_pair w h i k
    have := uninterrupted_inv es _ hu a1 (fun j => by rw [a3]; exact (ht j).trans a2)
    exact ⟨this.1, a2.trans this.2.1, this.2.2⟩
  | [.load _ _], _, hu, _, _ => hu.elim
  | .load _ _ :: .load _ _ :: _, _, hu, _, _ => hu.elim
  | .load _ _ :: .copy _ :: _, _, hu, _, _ => hu.elim
  | .load _ _ :: .update _ _ _ :: _, _, hu, _, _ => hu.elim
  | .store i :: es, w, hu, h, ht => by
    obtain ⟨a1, a2, a3⟩ := settled_step w h (.store i) (fun _ _ h => nomatch h)
    have := uninterrupted_inv es _ hu a1 (a3 ht)
    exact ⟨this.1, a2.trans this.2.1, this.2.2⟩
  | .copy i :: es, w, hu, h, ht => by
    obtain ⟨a1, a2, a3⟩ := settled_step w h (.copy i) (fun _ _ h => nomatch h)
    have := uninterrupted_inv es _ hu a1 (a3 ht)
    exact ⟨this.1, a2.trans this.2.1, this.2.2⟩
  | .update i k j :: es, w, hu, h, ht => by
    obtain ⟨a1, a2, a3⟩ := settled_step w h (.update i k j) (fun _ _ h => nomatch h)
    have := uninterrupted_inv es _ hu a1 (a3 ht)
    exact ⟨this.1, a2.trans this.2.1, this.2.2⟩

/-- Steps of other threads leave a thread where it is. -/
def Others (i : ℕ) (es : List Ev) : Prop := ∀ e ∈ es, match e with
  | .load j _ => j ≠ i
  | .store j => j ≠ i
  | .copy j => j ≠ i
  | .update j _ _ => j ≠ i

theorem others_pc (i : ℕ) : ∀ (es : List Ev) (w : World), Others i es → (run w es).pc i = w.pc i
  | [], _, _ => rfl
  | e :: es, w, h => by
    have h1 := h e (List.mem_cons_self ..)
    refine (others_pc i es (step w e) fun e' he' => h e' (List.mem_cons_of_mem _ he')).trans ?_
    cases e <;> (unfold step; dsimp only at h1 ⊢; split <;> first | rfl | exact Function.update_of_ne (Ne.symm h1) ..)

/-- **C105.** When increments are not interrupted, whatever the schedule of the threads otherwise, the ticker of a finished click is newer than every
ticker was when the call began. -/
theorem click_newest (es mid : List Ev) (i k : ℕ) (hu : Uninterrupted es) (hm : Uninterrupted mid) (hi : (run World.init es).pc i = .idle) (ho : Others i mid) :
    let w := run World.init es
    let w' := run World.init (es ++ [.load i k, .store i] ++ mid ++ [.copy i])
    (∀ j, w.ts j < w'.ts k) ∧ ∀ j, w'.ts j ≤ w'.g := by
  intro w w'
  obtain ⟨h1, -, h3⟩ := uninterrupted_inv es World.init hu (fun _ _ _ h => nomatch h) (fun _ => le_refl _)
  obtain ⟨a1, a2, a3, a4⟩ := settled_pair w h1 i k
  obtain ⟨a4, a5⟩ := a4 hi
  let w1 := step (step w (.load i k)) (.store i)
  obtain ⟨b1, b2, b3⟩ := uninterrupted_inv mid w1 hm a1 (fun j => by rw [a3]; exact (h3 j).trans a2)
  have hp : (run w1 mid).pc i = .stored k := (others_pc i mid w1 ho).trans a5
  have e : w' = step (run w1 mid) (.copy i) := by
    show run _ _ = _
    rw [run_append, run_append, run_append]
    rfl
  have e' : step (run w1 mid) (.copy i) = { run w1 mid with ts := Function.update (run w1 mid).ts k (run w1 mid).g, pc := Function.update (run w1 mid).pc i .idle } := by
    show (match (run w1 mid).pc i with
      | .stored k => _
      | _ => _) = _
    rw [hp]
  rw [e, e']
  dsimp only
  rw [Function.update_self]
  refine ⟨fun j => ?_, fun j => ?_⟩
  · have := h3 j
    have e3 : w1.g = w.g + 1 := a4
    have : w.ts j ≤ w.g := h3 j
    linarith
  · by_cases hj : j = k
    · subst hj
      rw [Function.update_self]
    · rw [Function.update_of_ne hj]
      exact b3 j

theorem serial_uninterrupted : ∀ es : List Ev, Serial es → Uninterrupted es
  | [], _ => trivial
  | .load _ _ :: .store _ :: .copy _ :: es, h => ⟨h.1, serial_uninterrupted es h.2.2⟩
  | .update _ _ _ :: es, h => serial_uninterrupted es h
  | [.load _ _], h => h.elim
  | [.load _ _, .store _], h => h.elim
  | .load _ _ :: .load _ _ :: _, h => h.elim
  | .load _ _ :: .copy _ :: _, h => h.elim
  | .load _ _ :: .update _ _ _ :: _, h => h.elim
  | .load _ _ :: .store _ :: .load _ _ :: _, h => h.elim
  | .load _ _ :: .store _ :: .store _ :: _, h => h.elim
  | .load _ _ :: .store _ :: .update _ _ _ :: _, h => h.elim
  | .store _ :: _, h => h.elim
  | .copy _ :: _, h => h.elim

theorem serial_idle : ∀ (es : List Ev) (w : World), Serial es → (∀ i, w.pc i = .idle) → ∀ i, (run w es).pc i = .idle
  | [], _, _, h => h
  | .load i k :: .store j :: .copy l :: es, w, hs, h => by
    obtain ⟨rfl, rfl, hs⟩ := hs
    refine serial_idle es _ hs fun m => ?_
    unfold step
    simp only [h i, Function.update_self]
    by_cases hm : m = i
    · subst hm
      rw [Function.update_self]
    · rw [Function.update_of_ne hm, Function.update_of_ne hm, Function.update_of_ne hm]
      exact h m
  | .update i k j :: es, w, hs, h => by
    refine serial_idle es _ hs fun m => ?_
    unfold step
    simp only [h i]
    exact h m
  | [.load _ _], _, h, _ => h.elim
  | [.load _ _, .store _], _, h, _ => h.elim
  | .load _ _ :: .load _ _ :: _, _, h, _ => h.elim
  | .load _ _ :: .copy _ :: _, _, h, _ => h.elim
  | .load _ _ :: .update _ _ _ :: _, _, h, _ => h.elim
  | .load _ _ :: .store _ :: .load _ _ :: _, _, h, _ => h.elim
  | .load _ _ :: .store _ :: .store _ :: _, _, h, _ => h.elim
  | .load _ _ :: .store _ :: .update _ _ _ :: _, _, h, _ => h.elim
  | .store _ :: _, _, h, _ => h.elim
  | .copy _ :: _, _, h, _ => h.elim

/-- When the calls of all threads are made one after the other (under a lock), in any order, every click gives the newest ticker. -/
theorem serial_newest (es : List Ev) (i k : ℕ) (hs : Serial es) :
    let w := run World.init es
    let w' := run World.init (es ++ [.load i k, .store i, .copy i])
    (∀ j, w.ts j < w'.ts k) ∧ ∀ j, w'.ts j ≤ w'.g := by
  have := click_newest es [] i k (serial_uninterrupted es hs) trivial (serial_idle es _ hs (fun _ => rfl) i) (fun e he => absurd he (by simp))
  simpa using this

/-! ### Interrupted increments -/

/-- A click of the thread `i`. -/
def click (i k : ℕ) : List Ev := [.load i k, .store i, .copy i]

theorem click_idle (w : World) (i k : ℕ) (h : w.pc i = .idle) :
    run w (click i k) = ⟨w.g + 1, Function.update w.ts k (w.g + 1), w.pc⟩ := by
  unfold click run
  simp only [List.foldl_cons, List.foldl_nil]
  unfold step
  simp only [h, Function.update_self, Function.update_idem]
  congr 1
  rw [← h, Function.update_eq_self]

theorem clicks_run (i k : ℕ) : ∀ (n : ℕ) (w : World), w.pc i = .idle →
    (run w ((List.replicate (n + 1) (click i k)).flatten)) = ⟨w.g + (n + 1), Function.update w.ts k (w.g + (n + 1)), w.pc⟩
  | 0, w, h => by
    show run w (click i k ++ []) = _
    rw [List.append_nil, click_idle w i k h]
    simp
  | n + 1, w, h => by
    rw [List.replicate_succ, List.flatten_cons, run_append, click_idle w i k h, clicks_run i k n ⟨w.g + 1, Function.update w.ts k (w.g + 1), w.pc⟩ h]
    dsimp only
    rw [Function.update_idem]
    push_cast
    congr 1
    · ring
    · congr 1; ring

/-- The increment of a thread (number 1) interrupted between load and store sets the counter back: the thread 0 has clicked its ticker 0 any number `n + 2` of times,
say when it stored a value, and after the other thread went on its next click, on the ticker 1 of a changed setting, gives a value that is older than the ticker 0 by `n`.
The change is not noticed. -/
theorem lost_click_bug (n : ℕ) : let w := run World.init ([.load 1 2] ++ (List.replicate (n + 1 + 1) (click 0 0)).flatten ++ [.store 1, .copy 1] ++ click 0 1)
    w.ts 1 = w.ts 0 - n ∧ w.ts 1 ≤ w.ts 0 ∧ ∀ i, w.pc i = .idle := by
  intro w
  let w1 := step World.init (.load 1 2)
  have e1 : w1 = ⟨0, fun _ => 0, Function.update (fun _ => Pc.idle) 1 (.loaded 2 0)⟩ := rfl
  have h1 : w1.pc 0 = .idle := rfl
  let w2 : World := ⟨w1.g + ((n + 1 : ℕ) + 1), Function.update w1.ts 0 (w1.g + ((n + 1 : ℕ) + 1)), w1.pc⟩
  have e2 : run w1 ((List.replicate (n + 1 + 1) (click 0 0)).flatten) = w2 := clicks_run 0 0 (n + 1) w1 h1
  let w3 := step (step w2 (.store 1)) (.copy 1)
  have e3 : w3 = ⟨1, Function.update w2.ts 2 1, Function.update (Function.update w1.pc 1 (.stored 2)) 1 .idle⟩ := rfl
  have h3 : w3.pc 0 = .idle := rfl
  have e4 : w = run w3 (click 0 1) := by
    show run _ _ = _
    rw [run_append, run_append, run_append]
    show run (run (run w1 _) _) _ = _
    rw [e2]
    rfl
  rw [e4, click_idle w3 0 1 h3]
  have t1 : (Function.update w3.ts 1 (w3.g + 1)) 1 = 2 := by rw [Function.update_self, e3]; rfl
  have t0 : (Function.update w3.ts 1 (w3.g + 1)) 0 = n + 2 := by
    rw [Function.update_of_ne (by decide), e3]
    show Function.update (Function.update w1.ts 0 (w1.g + ((n + 1 : ℕ) + 1))) 2 1 0 = _
    rw [Function.update_of_ne (by decide), Function.update_self, e1]
    push_cast
    ring
  dsimp only
  rw [t1, t0]
  refine ⟨by ring, by have : (0 : ℤ) ≤ n := Int.natCast_nonneg n; linarith, fun i => ?_⟩
  by_cases hi : i = 1
  · subst hi; rfl
  · show Function.update (Function.update w1.pc 1 (.stored 2)) 1 .idle i = _
    rw [Function.update_idem, Function.update_of_ne hi, e1]
    show Function.update (fun _ => Pc.idle) 1 (.loaded 2 0) i = _
    rw [Function.update_of_ne hi]

/-- Two threads whose steps alternate, with uninterrupted increments: each gets a newer ticker. -/
example : let w := run World.init [.load 0 0, .store 0, .load 1 1, .store 1, .copy 0, .copy 1]
    w.ts 0 = 2 ∧ w.ts 1 = 2 ∧ Uninterrupted [.load 0 0, .store 0, .load 1 1, .store 1, .copy 0, .copy 1] := by
  refine ⟨rfl, rfl, rfl, rfl, trivial⟩

end Verif.Threads
