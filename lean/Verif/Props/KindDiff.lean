import Verif.Model.KindDiff
import Verif.Props.History
import Mathlib.Tactic.Ring
import Mathlib.Tactic.Linarith
import Mathlib.Algebra.Order.Field.Rat
/-!
C55: differences between structures of different classes, and the fast update.
-/
namespace Verif.KindDiff
open Verif.Diff Verif.Eval Verif.History

variable {L O : Type} [DecidableEq L] [DecidableEq O]

/-- Same class of structure: both finite, both periodic, or both crystals. -/
def SameClass : Kind L O → Kind L O → Prop
  | .atomic, .atomic => True
  | .periodic _, .periodic _ => True
  | .crystal _ _, .crystal _ _ => True
  | _, _ => False

theorem base_not_fast (n0 n1 : Nat) : (baseDiff false n0 n1).allowsFast = false := by
  simp [baseDiff, SD.allowsFast]

/-- **C55** (partial): for two structures of the same class, a difference that allows a fast update
means that lattice and symmetry are the same, and the difference is the one of the atoms.  Missing:
structures of different classes, for which it is false (below). -/
theorem diff_kind_partial (s : Sorter) (x y : Stru L O) (hc : SameClass x.kind y.kind)
    (hf : (diff s false x y).allowsFast = true) :
    x.kind = y.kind ∧ diff s false x y = atomicDiff s false true x.atoms y.atoms := by
  obtain ⟨kx, ax⟩ := x
  obtain ⟨ky, ay⟩ := y
  unfold diff at hf ⊢
  cases kx with
  | atomic =>
    cases ky with
    | atomic => exact ⟨rfl, rfl⟩
    | periodic l => exact absurd hc (by simp [SameClass])
    | crystal l o => exact absurd hc (by simp [SameClass])
  | periodic l =>
    cases ky with
    | atomic => exact absurd hc (by simp [SameClass])
    | crystal l' o => exact absurd hc (by simp [SameClass])
    | periodic l' =>
      simp only [Kind.lattice?, Option.isSome_some, Option.some.injEq] at hf ⊢
      by_cases h : l' = l
      · subst h
        exact ⟨rfl, by simp [periodicDiff]⟩
      · rw [show periodicDiff s false true (decide (l' = l)) ax ay = baseDiff false ax.length ay.length by
          simp [periodicDiff, h], base_not_fast] at hf
        exact absurd hf (by simp)
  | crystal l o =>
    cases ky with
    | atomic => exact absurd hc (by simp [SameClass])
    | periodic l' => exact absurd hc (by simp [SameClass])
    | crystal l' o' =>
      simp only [Kind.lattice?, Kind.symops?, Option.isSome_some, Option.some.injEq] at hf ⊢
      by_cases h : o' = o
      · by_cases h2 : l' = l
        · subst h; subst h2
          exact ⟨rfl, by simp [crystalDiff, periodicDiff]⟩
        · rw [show crystalDiff s false true (decide (o' = o)) (decide (l' = l)) ax ay
              = baseDiff false ax.length ay.length by
            simp [crystalDiff, periodicDiff, h, h2], base_not_fast] at hf
          exact absurd hf (by simp)
      · rw [show crystalDiff s false true (decide (o' = o)) (decide (l' = l)) ax ay
            = baseDiff false ax.length ay.length by simp [crystalDiff, h], base_not_fast] at hf
        exact absurd hf (by simp)

/-- From a derived class to a base class a difference is always a complete replacement: a crystal
compared with a periodic or finite structure, a periodic structure compared with a finite one. -/
theorem diff_kind_down (s : Sorter) (x y : Stru L O)
    (h : (∃ l o, x.kind = .crystal l o ∧ ∀ l' o', y.kind ≠ .crystal l' o') ∨
      (∃ l, x.kind = .periodic l ∧ y.kind = .atomic)) :
    (diff s false x y).allowsFast = false := by
  obtain ⟨kx, ax⟩ := x
  obtain ⟨ky, ay⟩ := y
  unfold diff
  rcases h with ⟨l, o, h, hn⟩ | ⟨l, h, hn⟩
  · simp only at h hn
    subst h
    cases ky with
    | atomic => simp [Kind.symops?, crystalDiff, base_not_fast]
    | periodic l' => simp [Kind.symops?, crystalDiff, base_not_fast]
    | crystal l' o' => exact absurd rfl (hn l' o')
  · simp only at h hn
    subst h; subst hn
    simp [Kind.lattice?, periodicDiff, base_not_fast]

/-- **C55 is false of the code** in the other direction: a finite structure and a periodic one (any
lattice), or a periodic structure and a crystal with any symmetry operations on the same lattice, that
list the same atoms are reported as equal, with a difference that allows a fast update. -/
theorem diff_kind_bug (s : Sorter) (a : Atom) (as : List Atom) (l : L) (o : O) :
    (∀ k : Kind L O, (diff s false ⟨.atomic, a :: as⟩ ⟨k, a :: as⟩).allowsFast = true ∧
      diff s false ⟨.atomic, a :: as⟩ ⟨k, a :: as⟩ =
        ⟨as.length + 1, as.length + 1, [], [], .sideBySide⟩) ∧
    ((diff s false (⟨.periodic l, a :: as⟩ : Stru L O) ⟨.crystal l o, a :: as⟩).allowsFast = true ∧
      diff s false (⟨.periodic l, a :: as⟩ : Stru L O) ⟨.crystal l o, a :: as⟩ =
        ⟨as.length + 1, as.length + 1, [], [], .sideBySide⟩) := by
  have hb : ∀ b : Atom, b.beq b = true := by intro b; simp [Atom.beq]
  have hside : ∀ (bs : List Atom) (i : Nat), sideLoop i bs bs = ([], []) := by
    intro bs
    induction bs with
    | nil => intro i; rfl
    | cons b bs ih => intro i; simp [sideLoop, ih, hb]
  have hfast : (⟨as.length + 1, as.length + 1, [], [], .sideBySide⟩ : SD).allowsFast = true := by
    unfold SD.allowsFast
    simp only [List.length_nil, Nat.sub_zero, decide_eq_true_eq]
    have : 0 < (as.length + 1) * (as.length + 1) := Nat.mul_pos (Nat.succ_pos _) (Nat.succ_pos _)
    omega
  have hat : atomicDiff s false true (a :: as) (a :: as) = ⟨as.length + 1, as.length + 1, [], [], .sideBySide⟩ := by
    unfold atomicDiff
    simp only [Bool.false_eq_true, if_false, Bool.not_true, hside, List.length_cons]
    rw [if_pos hfast]
  have hper : diff s false (⟨.periodic l, a :: as⟩ : Stru L O) ⟨.crystal l o, a :: as⟩ =
      atomicDiff s false true (a :: as) (a :: as) := by
    simp [diff, periodicDiff, Kind.lattice?]
  refine ⟨fun k => ?_, ?_⟩
  · have : diff s false (⟨.atomic, a :: as⟩ : Stru L O) ⟨k, a :: as⟩ = atomicDiff s false true (a :: as) (a :: as) := rfl
    rw [this, hat]; exact ⟨hfast, rfl⟩
  · rw [hper, hat]; exact ⟨hfast, rfl⟩

/-- **C55** (partial), the value: take structures of one class only (`cls` holds of all their kinds, e.g.
all crystals).  A calculator whose bonds, contributions and masks are given by the lattice and symmetry
and by the atoms of the two sites meets `Lawful`, so the history theorems C12 apply to it: fast updates
give the value of a complete evaluation. -/
theorem kind_lawful_partial {C B G : Type} [AddCommGroup G] (cls : Kind L O → Prop)
    (hcls : ∀ k k', cls k → cls k' → SameClass k k')
    (K : Calc C {x : Stru L O // cls x.kind} B G) (s : Sorter) (hs : SortSpec s)
    (hdiff : ∀ x y, K.diff x y = diff s false x.1 y.1)
    (hcount : ∀ x, K.count x = x.1.atoms.length)
    (bonds : Kind L O → C → Nat → Nat → Option Atom → Option Atom → List B)
    (con : Kind L O → C → Nat → Nat → Option Atom → Option Atom → B → G)
    (use : C → Nat → Nat → Option Atom → Option Atom → Bool)
    (hgen : ∀ c x, GenSpec (K.gen c x) (fun i j => bonds x.1.kind c i j x.1.atoms[i]? x.1.atoms[j]?))
    (hcon : ∀ c x i j b, K.con c x i j b = con x.1.kind c i j x.1.atoms[i]? x.1.atoms[j]? b)
    (huse : ∀ c x i j, K.use c x i j = use c i j x.1.atoms[i]? x.1.atoms[j]?)
    (hsym : K.fullSum = false → ∀ k c i j a b, use c i j a b = use c j i b a ∧
      ((bonds k c i j a b).map (con k c i j a b)).sum = ((bonds k c j i b a).map (con k c j i b a)).sum)
    (hidx : ∀ c, (K.fixedIdx || K.hasPairMask c) = false →
      ∀ k i j i' j' a b, (i = j ↔ i' = j') → use c i j a b = use c i' j' a b ∧
        bonds k c i j a b = bonds k c i' j' a b ∧ con k c i j a b = con k c i' j' a b)
    (hcustom : ∀ s c, (K.custom s c).2 = false → (K.custom s c).1 = c)
    (hclose : ∀ v, K.close v v = true) : Lawful K where
  custom := hcustom
  close := hclose
  fast := by
    rintro c ⟨x, hx⟩ ⟨y, hy⟩ hf hm
    rw [hdiff] at hf
    obtain ⟨hk, hd⟩ := diff_kind_partial s x y (hcls _ _ hx hy) hf
    have hdiff' : K.diff ⟨x, hx⟩ ⟨y, hy⟩ = atomicDiff s false true x.atoms y.atoms := by rw [hdiff]; exact hd
    have h := fast_update_of_diff s hs false true x.atoms y.atoms (by intro h; cases h)
      (K.gen c ⟨x, hx⟩) (K.gen c ⟨y, hy⟩)
      (bonds x.kind c) (con x.kind c) (use c) (hgen c ⟨x, hx⟩) (by rw [hk]; exact hgen c ⟨y, hy⟩) K.fullSum
      (fun hfs i j a b => hsym hfs x.kind c i j a b) (by rw [← hd]; exact hf)
      (by
        intro hne
        cases hxx : (K.fixedIdx || K.hasPairMask c) with
        | false => exact hidx c hxx x.kind
        | true => exact absurd (by rw [← hdiff']; exact hm hxx) hne) true true
    have e1 : ∀ z, K.con c z = fun i j b => con z.1.kind c i j z.1.atoms[i]? z.1.atoms[j]? b := fun z => by
      funext i j b; exact hcon c z i j b
    have e2 : ∀ z, K.use c z = fun i j => use c i j z.1.atoms[i]? z.1.atoms[j]? := fun z => by
      funext i j; exact huse c z i j
    unfold basicValue
    rw [e1, e1, e2, e2, hcount, hcount, hdiff']
    simp only
    rw [← hk]
    exact h

/-! ### The wrong value -/

/-- Images of an atom on a line: a periodic structure repeats every `lat`; three images are enough for the
range of the example. -/
def shifts : Kind Rat Unit → List Rat
  | .atomic => [0]
  | .periodic l => [-l, 0, l]
  | .crystal l _ => [-l, 0, l]

/-- Bonds of the example calculator: images of atom `j` within `c` of atom `i`, not at the same point. -/
def kBonds (c : Rat) (stru : Stru Rat Unit) (i j : Nat) : List Unit :=
  match stru.atoms[i]?, stru.atoms[j]? with
  | some a, some b => ((shifts stru.kind).filter fun t =>
      decide (b.x + t - a.x ≤ c) && decide (a.x - b.x - t ≤ c) && decide (b.x + t ≠ a.x)).map fun _ => ()
  | _, _ => []

/-- A calculator that counts bonds, with the difference of the code. -/
def kCalc : Calc Rat (Stru Rat Unit) Unit Int where
  fullSum := false
  fixedIdx := false
  canStash := true
  hasPairMask _ := false
  rule := chopOuterRule
  count a := a.atoms.length
  gen c a i sel := sel.flatMap fun j => (kBonds c a i j).map fun b => (j, b)
  use _ _ _ _ := true
  con _ _ _ _ _ := 1
  custom _ c := (c, false)
  diff := diff exSorter false
  close x y := decide (x = y)

/-- **C55 is false of the code**: with the OPTIMIZED evaluator a periodic structure that is evaluated
after a finite structure with the same atoms gets the value of the finite structure (6 bond ends instead
of 8 for four atoms on a ring), although the evaluator and the calculator were used correctly. -/
theorem fast_update_kind_bug : ∃ (x y : Stru Rat Unit),
    evalResult kCalc (runOps kCalc (init 1 ⟨.atomic, []⟩ 0 1) [.setType .optimized, .eval x]) y = some 6 ∧
    (evalSt kCalc (runOps kCalc (init 1 ⟨.atomic, []⟩ 0 1) [.setType .optimized, .eval x]) y).used = .optimized ∧
    basicValue kCalc 1 y = 8 ∧ basicValue kCalc 1 x = 6 ∧ x.atoms = y.atoms :=
  ⟨⟨.atomic, [exAtom "C" 0, exAtom "C" 1, exAtom "C" 2, exAtom "C" 3]⟩,
    ⟨.periodic 4, [exAtom "C" 0, exAtom "C" 1, exAtom "C" 2, exAtom "C" 3]⟩, by decide +kernel⟩

/-- The same calculator restricted to periodic structures is lawful. -/
def perCalc : Calc Rat {x : Stru Rat Unit // ∃ l, x.kind = .periodic l} Unit Int where
  fullSum := false
  fixedIdx := false
  canStash := true
  hasPairMask _ := false
  rule := chopOuterRule
  count a := a.1.atoms.length
  gen c a i sel := sel.flatMap fun j => (kBonds c a.1 i j).map fun b => (j, b)
  use _ _ _ _ := true
  con _ _ _ _ _ := 1
  custom _ c := (c, false)
  diff x y := diff exSorter false x.1 y.1
  close x y := decide (x = y)

/-- Bonds of two atoms of a structure of the given kind. -/
def pBonds (k : Kind Rat Unit) (c : Rat) (_ _ : Nat) (a b : Option Atom) : List Unit :=
  match a, b with
  | some a, some b => ((shifts k).filter fun t =>
      decide (b.x + t - a.x ≤ c) && decide (a.x - b.x - t ≤ c) && decide (b.x + t ≠ a.x)).map fun _ => ()
  | _, _ => []

theorem pBonds_sym (k : Kind Rat Unit) (c : Rat) (i j : Nat) (a b : Option Atom) :
    (pBonds k c i j a b).length = (pBonds k c j i b a).length := by
  unfold pBonds
  cases a with
  | none => cases b <;> rfl
  | some a =>
    cases b with
    | none => rfl
    | some b =>
      simp only [List.length_map]
      have h : ∀ t : Rat, (decide (b.x + t - a.x ≤ c) && decide (a.x - b.x - t ≤ c) && decide (b.x + t ≠ a.x)) =
          (decide (a.x + -t - b.x ≤ c) && decide (b.x - a.x - -t ≤ c) && decide (a.x + -t ≠ b.x)) := by
        intro t
        have e1 : b.x + t - a.x = b.x - a.x - -t := by ring
        have e2 : a.x - b.x - t = a.x + -t - b.x := by ring
        have e3 : (b.x + t ≠ a.x) ↔ (a.x + -t ≠ b.x) := by
          constructor
          · intro h h'; exact h (by linarith)
          · intro h h'; exact h (by linarith)
        rw [e1, e2, decide_eq_decide.2 e3, Bool.and_comm (decide (b.x - a.x - -t ≤ c))]
      have h3 : ∀ l : Rat, (([-l, 0, l] : List Rat).filter fun t =>
          decide (b.x + t - a.x ≤ c) && decide (a.x - b.x - t ≤ c) && decide (b.x + t ≠ a.x)).length =
          (([-l, 0, l] : List Rat).filter fun t =>
          decide (a.x + t - b.x ≤ c) && decide (b.x - a.x - t ≤ c) && decide (a.x + t ≠ b.x)).length := by
        intro l
        have hm : ([-l, 0, l] : List Rat) = (([-l, 0, l] : List Rat).map fun t => -t).reverse := by simp
        conv_rhs => rw [hm]
        rw [List.filter_reverse, List.length_reverse, List.filter_map, List.length_map]
        congr 2
        funext t
        exact h t
      cases k with
      | atomic =>
        have := h 0
        rw [neg_zero] at this
        unfold shifts
        rw [List.filter_cons, List.filter_cons, this]
        rfl
      | periodic l => exact h3 l
      | crystal l o => exact h3 l

example : Lawful perCalc := by
  apply kind_lawful_partial (fun k => ∃ l, k = .periodic l)
    (by rintro _ _ ⟨l, rfl⟩ ⟨l', rfl⟩; trivial) perCalc exSorter exSorter_spec (fun _ _ => rfl) (fun _ => rfl) pBonds
    (fun _ _ _ _ _ _ _ => (1 : Int)) (fun _ _ _ _ _ => true)
  · intro c x i sel; exact List.Perm.refl _
  · intro c x i j b; rfl
  · intro c x i j; rfl
  · intro _ k c i j a b
    refine ⟨rfl, ?_⟩
    simp only [List.map_const', List.sum_replicate, pBonds_sym k c i j a b]
  · intro c _ k i j i' j' a b h; exact ⟨rfl, rfl, rfl⟩
  · intro _ _ _; rfl
  · intro v; simp [perCalc]

/-- The partial theorem is not vacuous: two periodic structures with the same lattice that differ in one of
four atoms allow a fast update. -/
example : (diff exSorter false (⟨.periodic 4, struA⟩ : Stru Rat Unit) ⟨.periodic 4, struB⟩).allowsFast = true ∧
    SameClass (.periodic 4 : Kind Rat Unit) (.periodic 4) := by
  refine ⟨by decide +kernel, trivial⟩

end Verif.KindDiff
