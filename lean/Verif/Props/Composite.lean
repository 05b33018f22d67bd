import Verif.Model.Composite
import Mathlib.Tactic.Basic
import Mathlib.Tactic.Cases
import Mathlib.Tactic.Tauto
import Mathlib.Tactic.Push
import Mathlib.Order.Basic
/-
C63: changes of shared components are noticed.
-/
set_option linter.unusedSectionVars false
namespace Verif.Composite
variable {V C : Type} [DecidableEq V] [DecidableEq C]

/-! ### Specification -/

/-- What the value of calculator `c` depends on: its own settings and the data of the components it holds. -/
def effective (w : World V C) (c : Nat) : C × V × V × Option V :=
  ((w.calcs c).cfg, (w.comps (w.calcs c).wptr).val, (w.comps (w.calcs c).tptr).val,
    match (w.calcs c).kind with
    | .pdf => some (w.comps (w.calcs c).pptr).val
    | .debye => none)

/-- Process start: calculators hold components; tickers are not ahead of the click counter. -/
structure Start (w : World V C) : Prop where
  ptrs : ∀ c, (w.calcs c).wptr < w.ncomps ∧ (w.calcs c).tptr < w.ncomps ∧ (w.calcs c).pptr < w.ncomps
  comps : ∀ k, (w.comps k).tick ≤ w.clock
  calcs : ∀ c, (w.calcs c).own ≤ w.clock ∧ (w.calcs c).wtick ≤ w.clock ∧ (w.calcs c).ttick ≤ w.clock

/-- The call is not an evaluation of `c`. -/
def NotEval (c : Nat) : Op V C → Prop
  | .eval c' => c' ≠ c
  | _ => True

/-- The call is not an assignment through a reference. -/
def Tracked : Op V C → Prop
  | .assignWidth _ _ => False
  | _ => True

/-- The call concerns neither `c` nor a component that `c` holds in `w`. -/
def Unrelated (w : World V C) (c : Nat) : Op V C → Prop
  | .create _ _ => True
  | .clone _ => True
  | .set id _ => id ≠ (w.calcs c).wptr ∧ id ≠ (w.calcs c).tptr ∧ ((w.calcs c).kind = .pdf → id ≠ (w.calcs c).pptr)
  | .setWidth c' _ | .setWidthByType c' _ _ | .setTable c' _ | .setTableByType c' _ _ | .setProfile c' _
  | .setProfileByType c' _ _ | .configure c' _ | .assignWidth c' _ => c' ≠ c
  | .ticker _ => True
  | .eval c' => c' ≠ c

/-! ### Lemmas -/

theorem start_step (w : World V C) (h : Start w) (op : Op V C) : Start (step w op) := by
  obtain ⟨h1, h2, h3⟩ := h
  cases op with
  | create v b =>
    refine ⟨fun c => ?_, fun k => ?_, fun c => ?_⟩
    · obtain ⟨a1, a2, a3⟩ := h1 c
      cases b <;> exact ⟨Nat.lt_succ_of_lt a1, Nat.lt_succ_of_lt a2, Nat.lt_succ_of_lt a3⟩
    · have := h2 k
      cases b <;> simp only [step, World.alloc, World.setComp, World.tickClock] <;> split <;> (try simp) <;> omega
    · obtain ⟨a1, a2, a3⟩ := h3 c
      cases b <;> simp only [step, World.alloc, World.setComp, World.tickClock] <;> simp <;> omega
  | clone id =>
    simp only [step]
    split
    · refine ⟨fun c => ?_, fun k => ?_, fun c => ?_⟩
      · obtain ⟨a1, a2, a3⟩ := h1 c
        exact ⟨Nat.lt_succ_of_lt a1, Nat.lt_succ_of_lt a2, Nat.lt_succ_of_lt a3⟩
      · simp only [World.setComp]
        split
        · exact h2 id
        · exact h2 k
      · exact h3 c
    · exact ⟨h1, h2, h3⟩
  | set id f =>
    simp only [step]
    split
    · split
      · refine ⟨h1, fun k => ?_, fun c => ?_⟩
        · simp only [World.setComp, World.tickClock]
          split
          · exact Nat.le_refl _
          · exact Nat.le_succ_of_le (h2 k)
        · obtain ⟨a1, a2, a3⟩ := h3 c
          exact ⟨Nat.le_succ_of_le a1, Nat.le_succ_of_le a2, Nat.le_succ_of_le a3⟩
      · exact ⟨h1, h2, h3⟩
    · exact ⟨h1, h2, h3⟩
  | setWidth c0 id =>
    simp only [step]
    split
    · next hid =>
      split
      · refine ⟨fun c => ?_, fun k => Nat.le_succ_of_le (h2 k), fun c => ?_⟩
        · obtain ⟨a1, a2, a3⟩ := h1 c
          obtain ⟨b1, b2, b3⟩ := h1 c0
          simp only [World.setCalc, World.tickClock]
          split
          · exact ⟨hid, b2, b3⟩
          · exact ⟨a1, a2, a3⟩
        · obtain ⟨a1, a2, a3⟩ := h3 c
          obtain ⟨b1, b2, b3⟩ := h3 c0
          simp only [World.setCalc, World.tickClock]
          split <;> (try dsimp only) <;> omega
      · exact ⟨h1, h2, h3⟩
    · exact ⟨h1, h2, h3⟩
  | setTable c0 id =>
    simp only [step]
    split
    · next hid =>
      split
      · refine ⟨fun c => ?_, fun k => Nat.le_succ_of_le (h2 k), fun c => ?_⟩
        · obtain ⟨a1, a2, a3⟩ := h1 c
          obtain ⟨b1, b2, b3⟩ := h1 c0
          simp only [World.setCalc, World.tickClock]
          split
          · exact ⟨b1, hid, b3⟩
          · exact ⟨a1, a2, a3⟩
        · obtain ⟨a1, a2, a3⟩ := h3 c
          obtain ⟨b1, b2, b3⟩ := h3 c0
          simp only [World.setCalc, World.tickClock]
          split <;> (try dsimp only) <;> omega
      · exact ⟨h1, h2, h3⟩
    · exact ⟨h1, h2, h3⟩
  | setProfile c0 id =>
    simp only [step]
    split
    · next hid =>
      split
      · refine ⟨fun c => ?_, fun k => Nat.le_succ_of_le (h2 k), fun c => ?_⟩
        · obtain ⟨a1, a2, a3⟩ := h1 c
          obtain ⟨b1, b2, b3⟩ := h1 c0
          simp only [World.setCalc, World.tickClock]
          split
          · exact ⟨b1, b2, hid⟩
          · exact ⟨a1, a2, a3⟩
        · obtain ⟨a1, a2, a3⟩ := h3 c
          obtain ⟨b1, b2, b3⟩ := h3 c0
          simp only [World.setCalc, World.tickClock]
          split <;> (try dsimp only) <;> omega
      · exact ⟨h1, h2, h3⟩
    · exact ⟨h1, h2, h3⟩
  | setWidthByType c0 v b =>
    refine ⟨fun c => ?_, fun k => ?_, fun c => ?_⟩
    · obtain ⟨a1, a2, a3⟩ := h1 c
      obtain ⟨b1, b2, b3⟩ := h1 c0
      cases b <;> simp only [step, World.alloc, World.setComp, World.tickClock, World.setCalc] <;> split <;> (try dsimp only) <;> (try simp) <;> omega
    · have := h2 k
      cases b <;> simp only [step, World.alloc, World.setComp, World.tickClock, World.setCalc] <;> split <;> (try simp) <;> omega
    · obtain ⟨a1, a2, a3⟩ := h3 c
      obtain ⟨b1, b2, b3⟩ := h3 c0
      cases b <;> simp only [step, World.alloc, World.setComp, World.tickClock, World.setCalc] <;> split <;> (try simp) <;> omega
  | setTableByType c0 v b =>
    refine ⟨fun c => ?_, fun k => ?_, fun c => ?_⟩
    · obtain ⟨a1, a2, a3⟩ := h1 c
      obtain ⟨b1, b2, b3⟩ := h1 c0
      cases b <;> simp only [step, World.alloc, World.setComp, World.tickClock, World.setCalc] <;> split <;> (try dsimp only) <;> (try simp) <;> omega
    · have := h2 k
      cases b <;> simp only [step, World.alloc, World.setComp, World.tickClock, World.setCalc] <;> split <;> (try simp) <;> omega
    · obtain ⟨a1, a2, a3⟩ := h3 c
      obtain ⟨b1, b2, b3⟩ := h3 c0
      cases b <;> simp only [step, World.alloc, World.setComp, World.tickClock, World.setCalc] <;> split <;> (try simp) <;> omega
  | setProfileByType c0 v b =>
    refine ⟨fun c => ?_, fun k => ?_, fun c => ?_⟩
    · obtain ⟨a1, a2, a3⟩ := h1 c
      obtain ⟨b1, b2, b3⟩ := h1 c0
      cases b <;> simp only [step, World.alloc, World.setComp, World.tickClock, World.setCalc] <;> split <;> (try dsimp only) <;> (try simp) <;> omega
    · have := h2 k
      cases b <;> simp only [step, World.alloc, World.setComp, World.tickClock, World.setCalc] <;> split <;> (try simp) <;> omega
    · obtain ⟨a1, a2, a3⟩ := h3 c
      obtain ⟨b1, b2, b3⟩ := h3 c0
      cases b <;> simp only [step, World.alloc, World.setComp, World.tickClock, World.setCalc] <;> split <;> (try simp) <;> omega
  | configure c0 f =>
    simp only [step]
    split
    · refine ⟨fun c => ?_, fun k => Nat.le_succ_of_le (h2 k), fun c => ?_⟩
      · obtain ⟨a1, a2, a3⟩ := h1 c
        obtain ⟨b1, b2, b3⟩ := h1 c0
        simp only [World.setCalc, World.tickClock]
        split <;> (try dsimp only) <;> omega
      · obtain ⟨a1, a2, a3⟩ := h3 c
        obtain ⟨b1, b2, b3⟩ := h3 c0
        simp only [World.setCalc, World.tickClock]
        split <;> (try dsimp only) <;> omega
    · exact ⟨h1, h2, h3⟩
  | ticker c0 =>
    refine ⟨fun c => ?_, h2, fun c => ?_⟩
    · obtain ⟨a1, a2, a3⟩ := h1 c
      obtain ⟨b1, b2, b3⟩ := h1 c0
      simp only [step, World.setCalc, refresh]
      split <;> (try dsimp only) <;> omega
    · obtain ⟨a1, a2, a3⟩ := h3 c
      obtain ⟨b1, b2, b3⟩ := h3 c0
      have k1 := h2 (w.calcs c0).wptr
      have k2 := h2 (w.calcs c0).tptr
      have k3 := h2 (w.calcs c0).pptr
      simp only [step, World.setCalc, refresh]
      split
      · cases (w.calcs c0).kind <;> (try dsimp only) <;> omega
      · omega
  | eval c0 =>
    refine ⟨fun c => ?_, fun k => Nat.le_succ_of_le (h2 k), fun c => ?_⟩
    · obtain ⟨a1, a2, a3⟩ := h1 c
      obtain ⟨b1, b2, b3⟩ := h1 c0
      simp only [step, World.setCalc, World.tickClock, refresh]
      split <;> (try dsimp only) <;> omega
    · obtain ⟨a1, a2, a3⟩ := h3 c
      obtain ⟨b1, b2, b3⟩ := h3 c0
      have k1 := h2 (w.calcs c0).wptr
      have k2 := h2 (w.calcs c0).tptr
      have k3 := h2 (w.calcs c0).pptr
      simp only [step, World.setCalc, World.tickClock, refresh]
      split
      · cases (w.calcs c0).kind <;> (try dsimp only) <;> omega
      · omega
  | assignWidth c0 id =>
    simp only [step]
    split
    · next hid =>
      refine ⟨fun c => ?_, h2, fun c => ?_⟩
      · obtain ⟨a1, a2, a3⟩ := h1 c
        obtain ⟨b1, b2, b3⟩ := h1 c0
        simp only [World.setCalc]
        split <;> (try dsimp only) <;> omega
      · obtain ⟨a1, a2, a3⟩ := h3 c
        obtain ⟨b1, b2, b3⟩ := h3 c0
        simp only [World.setCalc]
        split <;> (try dsimp only) <;> omega
    · exact ⟨h1, h2, h3⟩

theorem start_run (w : World V C) (h : Start w) (ops : List (Op V C)) : Start (run w ops) := by
  unfold run
  induction ops generalizing w with
  | nil => exact h
  | cons op ops ih => exact ih _ (start_step w h op)

/-- What `ticker()` reports. -/
def top (w : World V C) (c : Nat) : Nat := (refresh w (w.calcs c)).own

theorem top_eq (w : World V C) (c : Nat) : top w c =
    max (max (max (w.calcs c).own (max (w.calcs c).wtick (w.comps (w.calcs c).wptr).tick))
      (max (w.calcs c).ttick (w.comps (w.calcs c).tptr).tick))
      (match (w.calcs c).kind with | .pdf => (w.comps (w.calcs c).pptr).tick | .debye => 0) := by
  unfold top refresh
  cases h : (w.calcs c).kind <;> simp

/-- Same tickers and data of `c` and its components. -/
theorem top_congr (w w' : World V C) (c : Nat) (h1 : w'.calcs c = w.calcs c)
    (h2 : w'.comps (w.calcs c).wptr = w.comps (w.calcs c).wptr) (h3 : w'.comps (w.calcs c).tptr = w.comps (w.calcs c).tptr)
    (h4 : w'.comps (w.calcs c).pptr = w.comps (w.calcs c).pptr) :
    top w' c = top w c ∧ effective w' c = effective w c := by
  rw [top_eq, top_eq]
  unfold effective
  rw [h1, h2, h3, h4]
  exact ⟨rfl, rfl⟩

theorem alloc_comps (w : World V C) (v : V) (b : Bool) (k : Nat) (h : k < w.ncomps) : (w.alloc v b).comps k = w.comps k := by
  cases b <;> simp only [World.alloc, World.setComp, World.tickClock, Bool.false_eq_true, if_false, if_true] <;>
    exact if_neg (by omega)

theorem alloc_calcs (w : World V C) (v : V) (b : Bool) : (w.alloc v b).calcs = w.calcs := by cases b <;> rfl

theorem alloc_clock (w : World V C) (v : V) (b : Bool) : w.clock ≤ (w.alloc v b).clock := by
  cases b <;> simp [World.alloc, World.setComp, World.tickClock]

theorem top_le (w : World V C) (h : Start w) (c : Nat) : top w c ≤ w.clock := by
  rw [top_eq]
  obtain ⟨a1, a2, a3⟩ := h.calcs c
  have k1 := h.comps (w.calcs c).wptr
  have k2 := h.comps (w.calcs c).tptr
  have k3 := h.comps (w.calcs c).pptr
  cases (w.calcs c).kind <;> (try dsimp only) <;> omega

/-- A call never lowers what `ticker()` reports, and a call that changes what the value depends on raises it above the
click counter. -/
theorem top_step (w : World V C) (h : Start w) (op : Op V C) (ht : Tracked op) (c : Nat) :
    top w c ≤ top (step w op) c ∧ (effective (step w op) c = effective w c ∨ w.clock < top (step w op) c) := by
  have hle := top_le w h c
  obtain ⟨p1, p2, p3⟩ := h.ptrs c
  have same : ∀ w' : World V C, w'.calcs c = w.calcs c → (∀ k, k < w.ncomps → w'.comps k = w.comps k) →
      top w c ≤ top w' c ∧ (effective w' c = effective w c ∨ w.clock < top w' c) := by
    intro w' e1 e2
    obtain ⟨t1, t2⟩ := top_congr w w' c e1 (e2 _ p1) (e2 _ p2) (e2 _ p3)
    exact ⟨Nat.le_of_eq t1.symm, Or.inl t2⟩
  have above : ∀ w' : World V C, w.clock < top w' c →
      top w c ≤ top w' c ∧ (effective w' c = effective w c ∨ w.clock < top w' c) :=
    fun w' hw => ⟨by omega, Or.inr hw⟩
  have own_top : ∀ w' : World V C, (w'.calcs c).own ≤ top w' c := by intro w'; rw [top_eq]; omega
  have w_top : ∀ w' : World V C, (w'.calcs c).wtick ≤ top w' c := by intro w'; rw [top_eq]; omega
  have t_top : ∀ w' : World V C, (w'.calcs c).ttick ≤ top w' c := by intro w'; rw [top_eq]; omega
  cases op with
  | create v b => exact same _ (by rw [step, alloc_calcs]) fun k hk => alloc_comps w v b k hk
  | clone id =>
    simp only [step]
    split
    · refine same _ rfl fun k hk => ?_
      simp only [World.setComp]
      exact if_neg (by omega)
    · exact same _ rfl fun k _ => rfl
  | set id f =>
    simp only [step]
    split
    · split
      · constructor
        · rw [top_eq, top_eq]
          have hc : ∀ k, (w.comps k).tick ≤ ((w.tickClock.setComp id ⟨f (w.comps id).val, w.clock + 1⟩).comps k).tick := by
            intro k
            simp only [World.setComp, World.tickClock]
            split
            · have := h.comps k
              simp only
              omega
            · exact Nat.le_refl _
          have k1 := hc (w.calcs c).wptr
          have k2 := hc (w.calcs c).tptr
          have k3 := hc (w.calcs c).pptr
          have ec : (w.tickClock.setComp id ⟨f (w.comps id).val, w.clock + 1⟩).calcs = w.calcs := rfl
          rw [ec]
          cases (w.calcs c).kind <;> dsimp only <;> omega
        · by_cases hid : id = (w.calcs c).wptr ∨ id = (w.calcs c).tptr ∨ ((w.calcs c).kind = .pdf ∧ id = (w.calcs c).pptr)
          · right
            rw [top_eq]
            have hn : ((w.tickClock.setComp id ⟨f (w.comps id).val, w.clock + 1⟩).comps id).tick = w.clock + 1 := by
              simp [World.setComp]
            have ec : (w.tickClock.setComp id ⟨f (w.comps id).val, w.clock + 1⟩).calcs = w.calcs := rfl
            rw [ec]
            rcases hid with e | e | ⟨hk, e⟩
            · rw [← e, hn]; omega
            · rw [← e, hn]; omega
            · rw [hk, ← e]
              dsimp only
              rw [hn]
              omega
          · left
            push Not at hid
            obtain ⟨n1, n2, n3⟩ := hid
            unfold effective
            simp only [World.setComp, World.tickClock]
            rw [if_neg (Ne.symm n1), if_neg (Ne.symm n2)]
            cases hk : (w.calcs c).kind with
            | pdf => dsimp only; rw [if_neg (Ne.symm (n3 hk))]
            | debye => rfl
      · exact same _ rfl fun k _ => rfl
    · exact same _ rfl fun k _ => rfl
  | setWidth c0 id =>
    simp only [step]
    split
    · split
      · by_cases hc : c = c0
        · subst hc
          refine above _ (Nat.lt_of_lt_of_le ?_ (w_top _))
          simp [World.setCalc]
        · exact same _ (if_neg hc) fun k _ => rfl
      · exact same _ rfl fun k _ => rfl
    · exact same _ rfl fun k _ => rfl
  | setTable c0 id =>
    simp only [step]
    split
    · split
      · by_cases hc : c = c0
        · subst hc
          refine above _ (Nat.lt_of_lt_of_le ?_ (t_top _))
          simp [World.setCalc]
        · exact same _ (if_neg hc) fun k _ => rfl
      · exact same _ rfl fun k _ => rfl
    · exact same _ rfl fun k _ => rfl
  | setProfile c0 id =>
    simp only [step]
    split
    · split
      · by_cases hc : c = c0
        · subst hc
          refine above _ (Nat.lt_of_lt_of_le ?_ (own_top _))
          simp [World.setCalc]
        · exact same _ (if_neg hc) fun k _ => rfl
      · exact same _ rfl fun k _ => rfl
    · exact same _ rfl fun k _ => rfl
  | setWidthByType c0 v b =>
    have hcl := alloc_clock w v b
    by_cases hc : c = c0
    · subst hc
      refine above _ (Nat.lt_of_lt_of_le ?_ (w_top _))
      simp only [step, World.setCalc, if_true, World.tickClock]
      omega
    · exact same _ ((if_neg hc).trans (by rw [World.tickClock, alloc_calcs])) fun k hk => alloc_comps w v b k hk
  | setTableByType c0 v b =>
    have hcl := alloc_clock w v b
    by_cases hc : c = c0
    · subst hc
      refine above _ (Nat.lt_of_lt_of_le ?_ (t_top _))
      simp only [step, World.setCalc, if_true, World.tickClock]
      omega
    · exact same _ ((if_neg hc).trans (by rw [World.tickClock, alloc_calcs])) fun k hk => alloc_comps w v b k hk
  | setProfileByType c0 v b =>
    have hcl := alloc_clock w v b
    by_cases hc : c = c0
    · subst hc
      refine above _ (Nat.lt_of_lt_of_le ?_ (own_top _))
      simp only [step, World.setCalc, if_true, World.tickClock]
      omega
    · exact same _ ((if_neg hc).trans (by rw [World.tickClock, alloc_calcs])) fun k hk => alloc_comps w v b k hk
  | configure c0 f =>
    simp only [step]
    split
    · by_cases hc : c = c0
      · subst hc
        refine above _ (Nat.lt_of_lt_of_le ?_ (own_top _))
        simp [World.setCalc]
      · exact same _ (if_neg hc) fun k _ => rfl
    · exact same _ rfl fun k _ => rfl
  | ticker c0 =>
    by_cases hc : c = c0
    · subst hc
      have e : (step w (.ticker c)).calcs c = refresh w (w.calcs c) := if_pos rfl
      have e' : (step w (.ticker c)).comps = w.comps := rfl
      constructor
      · rw [top_eq, top_eq, e, e']
        unfold refresh
        cases hk : (w.calcs c).kind <;> dsimp only <;> omega
      · left
        unfold effective
        rw [e, e']
        rfl
    · exact same _ (if_neg hc) fun k _ => rfl
  | eval c0 =>
    by_cases hc : c = c0
    · subst hc
      have e : (step w (.eval c)).calcs c = { refresh w (w.calcs c) with valTick := w.clock + 1 } := if_pos rfl
      have e' : (step w (.eval c)).comps = w.comps := rfl
      constructor
      · rw [top_eq, top_eq, e, e']
        unfold refresh
        cases hk : (w.calcs c).kind <;> dsimp only <;> omega
      · left
        unfold effective
        rw [e, e']
        rfl
    · exact same _ (if_neg hc) fun k _ => rfl
  | assignWidth c0 id => exact ht.elim

theorem valTick_step (w : World V C) (op : Op V C) (c : Nat) (hn : NotEval c op) :
    ((step w op).calcs c).valTick = (w.calcs c).valTick := by
  cases op with
  | create v b => rw [step, alloc_calcs]
  | clone id => simp only [step]; split <;> rfl
  | set id f => simp only [step]; split <;> [split; skip] <;> rfl
  | setWidth c0 id =>
    simp only [step]
    split <;> [split; skip] <;> (try rfl)
    simp only [World.setCalc, World.tickClock]
    split
    · next h => rw [h]
    · rfl
  | setTable c0 id =>
    simp only [step]
    split <;> [split; skip] <;> (try rfl)
    simp only [World.setCalc, World.tickClock]
    split
    · next h => rw [h]
    · rfl
  | setProfile c0 id =>
    simp only [step]
    split <;> [split; skip] <;> (try rfl)
    simp only [World.setCalc, World.tickClock]
    split
    · next h => rw [h]
    · rfl
  | setWidthByType c0 v b | setTableByType c0 v b | setProfileByType c0 v b =>
    simp only [step, World.setCalc, World.tickClock, alloc_calcs]
    split
    · next h => rw [h]
    · rfl
  | configure c0 f =>
    simp only [step]
    split <;> (try rfl)
    simp only [World.setCalc, World.tickClock]
    split
    · next h => rw [h]
    · rfl
  | ticker c0 =>
    simp only [step, World.setCalc, refresh]
    split
    · next h => rw [h]
    · rfl
  | eval c0 =>
    have hn : c0 ≠ c := hn
    simp only [step, World.setCalc, World.tickClock]
    rw [if_neg (Ne.symm hn)]
  | assignWidth c0 id =>
    simp only [step]
    split <;> (try rfl)
    simp only [World.setCalc]
    split
    · next h => rw [h]
    · rfl

theorem clock_step (w : World V C) (op : Op V C) : w.clock ≤ (step w op).clock := by
  cases op with
  | create v b => exact alloc_clock w v b
  | clone id => simp only [step]; split <;> exact Nat.le_refl _
  | set id f => simp only [step]; split <;> [split; skip] <;> simp [World.setComp, World.tickClock]
  | setWidth c0 id | setTable c0 id | setProfile c0 id =>
    simp only [step]; split <;> [split; skip] <;> simp [World.setCalc, World.tickClock]
  | setWidthByType c0 v b | setTableByType c0 v b | setProfileByType c0 v b =>
    have := alloc_clock w v b
    simp only [step, World.setCalc, World.tickClock]
    omega
  | configure c0 f => simp only [step]; split <;> simp [World.setCalc, World.tickClock]
  | ticker c0 => exact Nat.le_refl _
  | eval c0 => exact Nat.le_succ _
  | assignWidth c0 id => simp only [step]; split <;> exact Nat.le_refl _

/-! ### Theorems -/

/-- C63. After an evaluation of `c` and any calls on the calculators and components: if anything that the value depends on
differs from what it was at the evaluation, then the next evaluation recalculates the value. -/
theorem change_detected (w : World V C) (h : Start w) (c : Nat) (ops : List (Op V C)) (ht : ∀ op ∈ ops, Tracked op)
    (hn : ∀ op ∈ ops, NotEval c op)
    (hd : effective (run (step w (.eval c)) ops) c ≠ effective (step w (.eval c)) c) :
    needsUpdate (run (step w (.eval c)) ops) c = true := by
  have key : ∀ (ops : List (Op V C)) (w1 : World V C) (v : Nat), Start w1 → (w1.calcs c).valTick = v → v ≤ w1.clock →
      (∀ op ∈ ops, Tracked op) → (∀ op ∈ ops, NotEval c op) →
      ((run w1 ops).calcs c).valTick = v ∧ (v ≤ top w1 c → v ≤ top (run w1 ops) c) ∧
      (effective (run w1 ops) c = effective w1 c ∨ v ≤ top (run w1 ops) c) := by
    intro ops
    induction ops with
    | nil => intro w1 v _ hv _ _ _; exact ⟨hv, fun h => h, Or.inl rfl⟩
    | cons op ops ih =>
      intro w1 v hs hv hc ht hn
      obtain ⟨t1, t2⟩ := top_step w1 hs op (ht op (List.mem_cons_self ..)) c
      obtain ⟨r1, r2, r3⟩ := ih (step w1 op) v (start_step w1 hs op)
        (by rw [valTick_step w1 op c (hn op (List.mem_cons_self ..)), hv]) (Nat.le_trans hc (clock_step w1 op))
        (fun o ho => ht o (List.mem_cons_of_mem _ ho)) fun o ho => hn o (List.mem_cons_of_mem _ ho)
      refine ⟨r1, fun hle => r2 (Nat.le_trans hle t1), ?_⟩
      rcases t2 with t2 | t2
      · rcases r3 with r3 | r3
        · exact Or.inl (r3.trans t2)
        · exact Or.inr r3
      · exact Or.inr (r2 (by omega))
  have hv : ((step w (.eval c)).calcs c).valTick = w.clock + 1 := by simp [step, World.setCalc]
  obtain ⟨k1, -, k3⟩ := key ops (step w (.eval c)) (w.clock + 1) (start_step w h _) hv (Nat.le_refl _) ht hn
  unfold needsUpdate
  rw [decide_eq_true_eq, k1]
  rcases k3 with k3 | k3
  · exact absurd k3 hd
  · exact k3

/-- C63. Calls that concern neither the calculator nor the components it holds do not force a recalculation. -/
theorem no_spurious (w : World V C) (h : Start w) (c : Nat) (ops : List (Op V C))
    (hu : ∀ op ∈ ops, Unrelated (step w (.eval c)) c op) : needsUpdate (run (step w (.eval c)) ops) c = false := by
  have key : ∀ (ops : List (Op V C)) (w1 : World V C), Start w1 → (∀ op ∈ ops, Unrelated (step w (.eval c)) c op) →
      ((w1.calcs c).wptr = (w.calcs c).wptr ∧ (w1.calcs c).tptr = (w.calcs c).tptr ∧ (w1.calcs c).pptr = (w.calcs c).pptr ∧
        (w1.calcs c).kind = (w.calcs c).kind) →
      (w1.calcs c).valTick = w.clock + 1 → top w1 c ≤ w.clock → needsUpdate (run w1 ops) c = false := by
    intro ops
    induction ops with
    | nil =>
      intro w1 _ _ _ hv ht
      unfold needsUpdate
      rw [decide_eq_false_iff_not]
      change ¬ (top w1 c ≥ (w1.calcs c).valTick)
      omega
    | cons op ops ih =>
      intro w1 hs hu hp hv ht
      have hop := hu op (List.mem_cons_self ..)
      have hu' : ∀ op ∈ ops, Unrelated (step w (.eval c)) c op := fun o ho => hu o (List.mem_cons_of_mem _ ho)
      have hs' := start_step w1 hs op
      obtain ⟨p1, p2, p3⟩ := hs.ptrs c
      have same : (step w1 op).calcs c = w1.calcs c → (∀ k, k < w1.ncomps → (step w1 op).comps k = w1.comps k) →
          needsUpdate (run (step w1 op) ops) c = false := by
        intro e1 e2
        obtain ⟨t1, -⟩ := top_congr w1 _ c e1 (e2 _ p1) (e2 _ p2) (e2 _ p3)
        exact ih _ hs' hu' (by rw [e1]; exact hp) (by rw [e1]; exact hv) (by rw [t1]; exact ht)
      change needsUpdate (run (step w1 op) ops) c = false
      cases op with
      | create v b => exact same (by rw [step, alloc_calcs]) fun k hk => alloc_comps w1 v b k hk
      | clone id =>
        simp only [step] at same hs' ⊢
        by_cases hid : id < w1.ncomps
        · rw [if_pos hid] at same hs' ⊢
          refine same rfl fun k hk => ?_
          simp only [World.setComp]
          exact if_neg (by omega)
        · rw [if_neg hid] at same hs' ⊢
          exact same rfl fun k _ => rfl
      | set id f =>
        obtain ⟨n1, n2, n3⟩ := hop
        have e0 : (step w (.eval c)).calcs c = { refresh w (w.calcs c) with valTick := w.clock + 1 } := if_pos rfl
        rw [e0] at n1 n2 n3
        change id ≠ (w.calcs c).wptr at n1
        change id ≠ (w.calcs c).tptr at n2
        change (w.calcs c).kind = .pdf → id ≠ (w.calcs c).pptr at n3
        obtain ⟨q1, q2, q3, q4⟩ := hp
        have e1 : (step w1 (.set id f)).calcs c = w1.calcs c := by
          simp only [step]
          split <;> [split; skip] <;> rfl
        have e2 : ∀ k, k ≠ id → (step w1 (.set id f)).comps k = w1.comps k := by
          intro k hk
          simp only [step]
          split <;> [split; skip] <;> (try rfl)
          exact if_neg hk
        refine ih _ hs' hu' (by rw [e1]; exact ⟨q1, q2, q3, q4⟩) (by rw [e1]; exact hv) ?_
        rw [top_eq] at ht ⊢
        rw [e1, e2 _ (by rw [q1]; exact n1.symm), e2 _ (by rw [q2]; exact n2.symm)]
        cases hk : (w1.calcs c).kind with
        | pdf =>
          rw [hk] at ht
          dsimp only at ht ⊢
          rw [e2 _ (by rw [q3]; exact (n3 (q4 ▸ hk)).symm)]
          exact ht
        | debye =>
          rw [hk] at ht
          exact ht
      | setWidth c0 id =>
        have hop : c0 ≠ c := hop
        refine same ?_ fun k _ => ?_
        · simp only [step]; split <;> [split; skip] <;> (try rfl)
          exact if_neg (Ne.symm hop)
        · simp only [step]; split <;> [split; skip] <;> rfl
      | setTable c0 id =>
        have hop : c0 ≠ c := hop
        refine same ?_ fun k _ => ?_
        · simp only [step]; split <;> [split; skip] <;> (try rfl)
          exact if_neg (Ne.symm hop)
        · simp only [step]; split <;> [split; skip] <;> rfl
      | setProfile c0 id =>
        have hop : c0 ≠ c := hop
        refine same ?_ fun k _ => ?_
        · simp only [step]; split <;> [split; skip] <;> (try rfl)
          exact if_neg (Ne.symm hop)
        · simp only [step]; split <;> [split; skip] <;> rfl
      | setWidthByType c0 v b =>
        have hop : c0 ≠ c := hop
        exact same ((if_neg (Ne.symm hop)).trans (by rw [World.tickClock, alloc_calcs])) fun k hk => alloc_comps w1 v b k hk
      | setTableByType c0 v b =>
        have hop : c0 ≠ c := hop
        exact same ((if_neg (Ne.symm hop)).trans (by rw [World.tickClock, alloc_calcs])) fun k hk => alloc_comps w1 v b k hk
      | setProfileByType c0 v b =>
        have hop : c0 ≠ c := hop
        exact same ((if_neg (Ne.symm hop)).trans (by rw [World.tickClock, alloc_calcs])) fun k hk => alloc_comps w1 v b k hk
      | configure c0 f =>
        have hop : c0 ≠ c := hop
        refine same ?_ fun k _ => ?_
        · simp only [step]; split <;> (try rfl)
          exact if_neg (Ne.symm hop)
        · simp only [step]; split <;> rfl
      | ticker c0 =>
        by_cases hc : c = c0
        · subst hc
          have e : (step w1 (.ticker c)).calcs c = refresh w1 (w1.calcs c) := if_pos rfl
          refine ih _ hs' hu' (by rw [e]; exact hp) (by rw [e]; exact hv) ?_
          rw [top_eq] at ht ⊢
          have e' : (step w1 (.ticker c)).comps = w1.comps := rfl
          rw [e, e']
          unfold refresh
          cases hk : (w1.calcs c).kind <;> rw [hk] at ht <;> dsimp only at ht ⊢ <;> omega
        · exact same (if_neg hc) fun k _ => rfl
      | eval c0 =>
        have hop : c0 ≠ c := hop
        exact same (if_neg (Ne.symm hop)) fun k _ => rfl
      | assignWidth c0 id =>
        have hop : c0 ≠ c := hop
        refine same ?_ fun k _ => ?_
        · simp only [step]; split <;> (try rfl)
          exact if_neg (Ne.symm hop)
        · simp only [step]; split <;> rfl
  have e : (step w (.eval c)).calcs c = { refresh w (w.calcs c) with valTick := w.clock + 1 } := if_pos rfl
  have e' : (step w (.eval c)).comps = w.comps := rfl
  refine key ops _ (start_step w h _) hu (by rw [e]; exact ⟨rfl, rfl, rfl, rfl⟩) (by rw [e]) ?_
  have := top_le w h c
  rw [top_eq] at this ⊢
  rw [e, e']
  unfold refresh
  cases hk : (w.calcs c).kind <;> rw [hk] at this <;> dsimp only at this ⊢ <;> omega

/-! ### What the calls do -/

/-- **The calls take effect**: a setter gives its component the new data and leaves the others; `setPeakWidthModel` and the like make the calculator
use the data of the given component, `...ByType` those of a new one; a setter of the calculator changes its settings; other calculators are
not touched. -/
theorem calls_effect (w : World V C) (h : Start w) (c : Nat) :
    (∀ id f, id < w.ncomps → ((step w (.set id f)).comps id).val = f (w.comps id).val ∧
      ∀ k, k ≠ id → (step w (.set id f)).comps k = w.comps k) ∧
    (∀ id, id < w.ncomps → effective (step w (.setWidth c id)) c =
      ((effective w c).1, (w.comps id).val, (effective w c).2.2)) ∧
    (∀ id, id < w.ncomps → effective (step w (.setTable c id)) c =
      ((effective w c).1, (effective w c).2.1, (w.comps id).val, (effective w c).2.2.2)) ∧
    (∀ id, id < w.ncomps → (w.calcs c).kind = .pdf → effective (step w (.setProfile c id)) c =
      ((effective w c).1, (effective w c).2.1, (effective w c).2.2.1, some (w.comps id).val)) ∧
    (∀ v b, effective (step w (.setWidthByType c v b)) c = ((effective w c).1, v, (effective w c).2.2)) ∧
    (∀ v b, effective (step w (.setTableByType c v b)) c = ((effective w c).1, (effective w c).2.1, v, (effective w c).2.2.2)) ∧
    (∀ v b, (w.calcs c).kind = .pdf → effective (step w (.setProfileByType c v b)) c =
      ((effective w c).1, (effective w c).2.1, (effective w c).2.2.1, some v)) ∧
    (∀ f, effective (step w (.configure c f)) c = (f (effective w c).1, (effective w c).2)) ∧
    (effective (step w (.ticker c)) c = effective w c ∧ effective (step w (.eval c)) c = effective w c) := by
  obtain ⟨p1, p2, p3⟩ := h.ptrs c
  have new : ∀ (v : V) (b : Bool), (w.alloc v b).comps w.ncomps = ⟨v, ((w.alloc v b).comps w.ncomps).tick⟩ := by
    intro v b
    cases b <;> simp [World.alloc, World.setComp, World.tickClock]
  refine ⟨fun id f hid => ⟨?_, fun k hk => ?_⟩, fun id hid => ?_, fun id hid => ?_, fun id hid hkind => ?_, fun v b => ?_, fun v b => ?_,
    fun v b hkind => ?_, fun f => ?_, ?_, ?_⟩
  · simp only [step, if_pos hid]
    by_cases hf : f (w.comps id).val = (w.comps id).val
    · simp [hf]
    · simp [hf, World.setComp, World.tickClock]
  · simp only [step, if_pos hid]
    split <;> simp [World.setComp, World.tickClock, hk]
  · simp only [step, if_pos hid]
    by_cases hf : (w.calcs c).wptr = id
    · subst hf; simp [effective]
    · simp [hf, effective, World.setCalc, World.tickClock]
  · simp only [step, if_pos hid]
    by_cases hf : (w.calcs c).tptr = id
    · subst hf; simp [effective]
    · simp [hf, effective, World.setCalc, World.tickClock]
  · simp only [step, if_pos hid]
    by_cases hf : (w.calcs c).pptr = id
    · subst hf; simp [effective, hkind]
    · simp [hf, effective, World.setCalc, World.tickClock, hkind]
  · simp only [step, effective, World.setCalc, World.tickClock, if_true]
    rw [new, alloc_comps w v b _ p2, alloc_comps w v b _ p3]
  · simp only [step, effective, World.setCalc, World.tickClock, if_true]
    rw [new, alloc_comps w v b _ p1, alloc_comps w v b _ p3]
  · simp only [step, effective, World.setCalc, World.tickClock, if_true, hkind]
    rw [new, alloc_comps w v b _ p1, alloc_comps w v b _ p2]
  · simp only [step]
    by_cases hf : f (w.calcs c).cfg = (w.calcs c).cfg
    · simp [hf, effective]
    · simp [hf, effective, World.setCalc, World.tickClock]
  · simp [step, effective, World.setCalc, refresh]
  · simp [step, effective, World.setCalc, World.tickClock, refresh]

/-! ### A case -/

/-- Two calculators that share the width model 0, with tables 1 and profile 2; another width model 3. -/
def exWorld : World Nat Nat :=
  ⟨5, fun k => ⟨10 * k, if k = 3 then 0 else 5⟩, 4, fun c => ⟨if c = 0 then .pdf else .debye, 7, 4, 0, 4, 1, 4, 2, 0⟩⟩

theorem exWorld_start : Start exWorld where
  ptrs c := by simp [exWorld]
  comps k := by simp only [exWorld]; split <;> omega
  calcs c := by simp [exWorld]

/-- A change of the shared width model through one calculator is noticed by the other one. -/
example : effective (run (step exWorld (.eval 1)) [.setProfile 0 3, .set 0 (· + 1), .ticker 0]) 1 ≠
    effective (step exWorld (.eval 1)) 1 ∧
    needsUpdate (run (step exWorld (.eval 1)) [.setProfile 0 3, .set 0 (· + 1), .ticker 0]) 1 = true := by decide

example : ∀ op ∈ ([.setProfile 0 3, .set 3 (· + 1), .eval 0, .ticker 1] : List (Op Nat Nat)),
    Unrelated (step exWorld (.eval 1)) 1 op := by
  intro op h
  simp only [List.mem_cons, List.not_mem_nil, or_false] at h
  rcases h with rfl | rfl | rfl | rfl <;> simp [Unrelated, step, World.setCalc, refresh, exWorld]

/-- An assignment through the reference returned by `getPeakWidthModel()` changes the widths without being noticed. -/
theorem assign_untracked :
    effective (run (step exWorld (.eval 0)) [.assignWidth 0 3]) 0 ≠ effective (step exWorld (.eval 0)) 0 ∧
      needsUpdate (run (step exWorld (.eval 0)) [.assignWidth 0 3]) 0 = false := by decide

end Verif.Composite
