import Verif.Props.Overlap
import Mathlib.Logic.Relation
import Mathlib.Tactic.Tauto
/-!
C20: `neighborhoods()` are the connected components of the overlap graph.
-/
set_option linter.unusedSectionVars false
namespace Verif.Overlap
open Verif.AssocMap Verif.Eval

/-- Two sites are linked by a chain of overlapping pairs. -/
def Linked (E : List (Nat × Nat)) : Nat → Nat → Prop := Relation.EqvGen fun x y => (x, y) ∈ E

/-- `x` is an end of a pair in `E`. -/
def Touched (E : List (Nat × Nat)) (x : Nat) : Prop := ∃ y, (x, y) ∈ E ∨ (y, x) ∈ E

structure Inv (E : List (Nat × Nat)) (h : Heap) : Prop where
  lt : ∀ x p, h.ptr x = some p → p < h.next
  sets : ∀ x p, h.ptr x = some p → ∀ y, y ∈ h.set p ↔ h.ptr y = some p
  dom : ∀ x, (h.ptr x).isSome ↔ Touched E x
  linked : ∀ x y p, h.ptr x = some p → h.ptr y = some p → Linked E x y
  edge : ∀ x y, (x, y) ∈ E → h.ptr x = h.ptr y

theorem Linked.mono {E E' : List (Nat × Nat)} (h : ∀ e ∈ E, e ∈ E') {x y : Nat} (hl : Linked E x y) :
    Linked E' x y := by
  unfold Linked at *
  induction hl with
  | rel x y hxy => exact Relation.EqvGen.rel _ _ (h _ hxy)
  | refl x => exact Relation.EqvGen.refl x
  | symm x y _ ih => exact Relation.EqvGen.symm _ _ ih
  | trans x y z _ _ ih1 ih2 => exact Relation.EqvGen.trans _ _ _ ih1 ih2

theorem linked_ptr {E : List (Nat × Nat)} {h : Heap} (hi : Inv E h) {x y : Nat} (hl : Linked E x y) :
    h.ptr x = h.ptr y := by
  unfold Linked at hl
  induction hl with
  | rel x y hxy => exact hi.edge _ _ hxy
  | refl x => rfl
  | symm x y _ ih => exact ih.symm
  | trans x y z _ _ ih1 ih2 => exact ih1.trans ih2

theorem inv_nil : Inv [] ⟨fun _ => none, fun _ => [], 0⟩ where
  lt := by simp
  sets := by simp
  dom := by simp [Touched]
  linked := by simp
  edge := by simp

theorem touched_append (E F : List (Nat × Nat)) (x : Nat) : Touched (E ++ F) x ↔ Touched E x ∨ Touched F x := by
  unfold Touched
  simp only [List.mem_append]
  constructor
  · rintro ⟨y, (h | h) | (h | h)⟩
    · exact Or.inl ⟨y, Or.inl h⟩
    · exact Or.inr ⟨y, Or.inl h⟩
    · exact Or.inl ⟨y, Or.inr h⟩
    · exact Or.inr ⟨y, Or.inr h⟩
  · rintro (⟨y, h | h⟩ | ⟨y, h | h⟩)
    · exact ⟨y, Or.inl (Or.inl h)⟩
    · exact ⟨y, Or.inr (Or.inl h)⟩
    · exact ⟨y, Or.inl (Or.inr h)⟩
    · exact ⟨y, Or.inr (Or.inr h)⟩

theorem touched_pair (a b x : Nat) : Touched [(a, b)] x ↔ x = a ∨ x = b := by
  unfold Touched
  simp only [List.mem_singleton, Prod.mk.injEq]
  constructor
  · rintro ⟨y, ⟨h, _⟩ | ⟨_, h⟩⟩
    · exact Or.inl h
    · exact Or.inr h
  · rintro (h | h)
    · exact ⟨b, Or.inl ⟨h, rfl⟩⟩
    · exact ⟨a, Or.inr ⟨rfl, h⟩⟩

/-- A new set for an untouched site counts as the pair of the site with itself. -/
theorem inv_newSet {E : List (Nat × Nat)} {h : Heap} (hi : Inv E h) (x : Nat) (hx : h.ptr x = none) :
    Inv (E ++ [(x, x)]) (newSet h x) := by
  have hne : ∀ y p, h.ptr y = some p → y ≠ x := by
    rintro y p hp rfl; rw [hx] at hp; simp at hp
  have hptr : ∀ y, (newSet h x).ptr y = if y = x then some h.next else h.ptr y := by
    intro y; unfold newSet; simp only [Function.update_apply]
  have hset : ∀ p, (newSet h x).set p = if p = h.next then [x] else h.set p := by
    intro p; unfold newSet; simp only [Function.update_apply]
  constructor
  · intro y p hp
    rw [hptr] at hp
    change p < h.next + 1
    by_cases hy : y = x
    · rw [if_pos hy] at hp; simp at hp; omega
    · rw [if_neg hy] at hp; have := hi.lt y p hp; omega
  · intro y p hp z
    rw [hptr] at hp ⊢
    rw [hset]
    by_cases hy : y = x
    · rw [if_pos hy] at hp
      have hp' : p = h.next := (Option.some.inj hp).symm
      subst hp'
      rw [if_pos rfl]
      by_cases hz : z = x
      · simp [hz]
      · rw [if_neg hz]
        simp only [List.mem_singleton, hz, false_iff]
        intro hh; have := hi.lt z _ hh; omega
    · rw [if_neg hy] at hp
      have hlt := hi.lt y p hp
      rw [if_neg (by omega)]
      by_cases hz : z = x
      · rw [if_pos hz, hi.sets y p hp z, hz, hx]
        simp only [reduceCtorEq, false_iff, Option.some.injEq]
        omega
      · rw [if_neg hz]; exact hi.sets y p hp z
  · intro y
    rw [touched_append, touched_pair, hptr, ← hi.dom y]
    by_cases hy : y = x
    · simp [hy]
    · simp [hy]
  · intro y z p hy hz
    rw [hptr] at hy hz
    have hmono : ∀ e ∈ E, e ∈ E ++ [(x, x)] := fun e he => List.mem_append_left _ he
    by_cases h1 : y = x <;> by_cases h2 : z = x
    · rw [h1, h2]; exact Relation.EqvGen.refl _
    · rw [if_pos h1] at hy; rw [if_neg h2] at hz
      have := hi.lt z p hz
      simp only [Option.some.injEq] at hy; omega
    · rw [if_pos h2] at hz; rw [if_neg h1] at hy
      have := hi.lt y p hy
      simp only [Option.some.injEq] at hz; omega
    · rw [if_neg h1] at hy; rw [if_neg h2] at hz
      exact (hi.linked y z p hy hz).mono hmono
  · intro y z hyz
    rcases List.mem_append.1 hyz with h1 | h1
    · have := hi.edge y z h1
      have hy : (h.ptr y).isSome := (hi.dom y).2 ⟨z, Or.inl h1⟩
      have hz : (h.ptr z).isSome := (hi.dom z).2 ⟨y, Or.inr h1⟩
      have hy' : y ≠ x := by rintro rfl; rw [hx] at hy; simp at hy
      have hz' : z ≠ x := by rintro rfl; rw [hx] at hz; simp at hz
      rw [hptr, hptr, if_neg hy', if_neg hz', this]
    · simp only [List.mem_singleton, Prod.mk.injEq] at h1
      rw [h1.1, h1.2]

/-- State after moving the sites `l` to the set `p0`. -/
theorem unify_spec (p0 : Nat) (l : List Nat) (h : Heap) :
    (∀ y, (unify p0 h l).ptr y = if y ∈ l then some p0 else h.ptr y) ∧
    (∀ p, p ≠ p0 → (unify p0 h l).set p = h.set p) ∧
    (∀ y, y ∈ (unify p0 h l).set p0 ↔ y ∈ h.set p0 ∨ y ∈ l) ∧ (unify p0 h l).next = h.next := by
  induction l generalizing h with
  | nil => simp [unify]
  | cons x l ih =>
    unfold unify
    obtain ⟨h1, h2, h3, h4⟩ := ih (setPtr (insertAt h p0 x) x p0)
    have hs : ∀ y, y ∈ (setInsert (h.set p0) x).1 ↔ y ∈ h.set p0 ∨ y = x := by
      intro y
      unfold setInsert
      by_cases hx : x ∈ h.set p0
      · rw [if_pos hx]
        constructor
        · exact Or.inl
        · rintro (h | rfl)
          · exact h
          · exact hx
      · rw [if_neg hx]; simp [or_comm]
    refine ⟨?_, ?_, ?_, ?_⟩
    · intro y
      rw [h1]
      unfold setPtr insertAt
      simp only [Function.update_apply, List.mem_cons]
      by_cases hy : y ∈ l
      · simp [hy]
      · by_cases hyx : y = x
        · simp [hyx]
        · simp [hy, hyx]
    · intro p hp
      rw [h2 p hp]
      unfold setPtr insertAt
      simp only [Function.update_apply, if_neg hp]
    · intro y
      rw [h3]
      unfold setPtr insertAt
      simp only [Function.update_apply, if_true, hs, List.mem_cons]
      tauto
    · rw [h4]; rfl

theorem inv_link {E : List (Nat × Nat)} {h : Heap} (hi : Inv E h) (j0 j1 : Nat) :
    Inv (E ++ [(j0, j1)]) (link h j0 j1) := by
  unfold link
  -- first step
  generalize hh1 : (if (h.ptr j0).isNone then newSet h j0 else h) = h1
  have step1 : ∃ F, (∀ x, Touched (E ++ F) x ↔ Touched E x ∨ x = j0) ∧ Inv (E ++ F) h1 ∧
      (∀ e ∈ F, e = (j0, j0)) := by
    by_cases hn : h.ptr j0 = none
    · have : h1 = newSet h j0 := by rw [← hh1, hn]; rfl
      refine ⟨[(j0, j0)], ?_, this ▸ inv_newSet hi j0 hn, by simp⟩
      intro x; rw [touched_append, touched_pair, or_self]
    · have : h1 = h := by
        rw [← hh1, if_neg]; simpa using hn
      refine ⟨[], ?_, by rw [this, List.append_nil]; exact hi, by simp⟩
      intro x
      rw [List.append_nil]
      constructor
      · exact Or.inl
      · rintro (h | rfl)
        · exact h
        · rw [← hi.dom]; exact Option.isSome_iff_ne_none.2 hn
  obtain ⟨F, hF, hi1, hFe⟩ := step1
  obtain ⟨p0, hp0⟩ : ∃ p0, h1.ptr j0 = some p0 := by
    have : (h1.ptr j0).isSome := (hi1.dom j0).2 ((hF j0).2 (Or.inr rfl))
    exact Option.isSome_iff_exists.1 this
  simp only [hp0, Option.getD_some]
  -- linked in E ++ F implies linked in E ++ [(j0,j1)]
  have hlk : ∀ x y, Linked (E ++ F) x y → Linked (E ++ [(j0, j1)]) x y := by
    intro x y hl
    unfold Linked at *
    induction hl with
    | rel x y hxy =>
      rcases List.mem_append.1 hxy with h1 | h1
      · exact Relation.EqvGen.rel _ _ (List.mem_append_left _ h1)
      · have := hFe _ h1
        simp only [Prod.mk.injEq] at this
        rw [this.1, this.2]; exact Relation.EqvGen.refl _
    | refl x => exact Relation.EqvGen.refl x
    | symm x y _ ih => exact Relation.EqvGen.symm _ _ ih
    | trans x y z _ _ ih1 ih2 => exact Relation.EqvGen.trans _ _ _ ih1 ih2
  have hnew : Linked (E ++ [(j0, j1)]) j0 j1 := Relation.EqvGen.rel _ _ (List.mem_append_right _ (by simp))
  have htouch : ∀ x, Touched (E ++ [(j0, j1)]) x ↔ Touched (E ++ F) x ∨ x = j1 := by
    intro x
    rw [touched_append, touched_pair, hF x]; tauto
  have hedge1 : ∀ x y, (x, y) ∈ E → h1.ptr x = h1.ptr y := fun x y hxy =>
    hi1.edge x y (List.mem_append_left _ hxy)
  by_cases hn1 : h1.ptr j1 = none
  · -- the second site joins the set of the first
    have e2 : (if (h1.ptr j1).isNone = true then setPtr (insertAt h1 p0 j1) j1 p0 else h1) =
        unify p0 h1 [j1] := by rw [hn1]; rfl
    rw [e2]
    obtain ⟨u1, u2, u3, u4⟩ := unify_spec p0 [j1] h1
    generalize unify p0 h1 [j1] = h2 at *
    have hj0 : h2.ptr j0 = some p0 := by
      rw [u1, hp0]; split <;> rfl
    have hj1 : h2.ptr j1 = some p0 := by rw [u1]; simp
    rw [if_pos (by rw [hj0, hj1])]
    have hsome : ∀ x p, h2.ptr x = some p → (x = j1 ∧ p = p0) ∨ (x ≠ j1 ∧ h1.ptr x = some p) := by
      intro x p hp
      rw [u1] at hp
      by_cases hx : x = j1
      · rw [if_pos (by simp [hx])] at hp; exact Or.inl ⟨hx, (Option.some.inj hp).symm⟩
      · rw [if_neg (by simp [hx])] at hp; exact Or.inr ⟨hx, hp⟩
    constructor
    · intro x p hp
      rw [u4]
      rcases hsome x p hp with ⟨-, rfl⟩ | ⟨-, h⟩
      · exact hi1.lt _ _ hp0
      · exact hi1.lt _ _ h
    · intro x p hp y
      by_cases hpp : p = p0
      · subst hpp
        rw [u3, hi1.sets j0 p hp0 y, u1]
        by_cases hy : y = j1
        · simp [hy]
        · simp [hy]
      · rw [u2 p hpp]
        rcases hsome x p hp with ⟨-, h⟩ | ⟨-, h⟩
        · exact absurd h hpp
        · rw [hi1.sets x p h y, u1]
          by_cases hy : y = j1
          · rw [if_pos (by simp [hy]), hy, hn1]
            simp only [reduceCtorEq, Option.some.injEq, false_iff]
            exact fun e => hpp e.symm
          · rw [if_neg (by simp [hy])]
    · intro x
      rw [htouch, ← hi1.dom x, u1]
      by_cases hx : x = j1 <;> simp [hx]
    · have hto : ∀ x, h2.ptr x = some p0 → Linked (E ++ [(j0, j1)]) j0 x := by
        intro x hx
        rcases hsome x p0 hx with ⟨rfl, -⟩ | ⟨-, h⟩
        · exact hnew
        · exact hlk _ _ (hi1.linked j0 x p0 hp0 h)
      intro x y p hx hy
      by_cases hpp : p = p0
      · subst hpp
        exact Relation.EqvGen.trans _ _ _ (Relation.EqvGen.symm _ _ (hto x hx)) (hto y hy)
      · rcases hsome x p hx with ⟨-, h⟩ | ⟨-, hx'⟩
        · exact absurd h hpp
        · rcases hsome y p hy with ⟨-, h⟩ | ⟨-, hy'⟩
          · exact absurd h hpp
          · exact hlk _ _ (hi1.linked x y p hx' hy')
    · intro x y hxy
      rcases List.mem_append.1 hxy with h3 | h3
      · have hne : ∀ z, Touched E z → z ≠ j1 := by
          rintro z hz rfl
          have := (hi1.dom z).2 ((hF z).2 (Or.inl hz))
          rw [hn1] at this; simp at this
        have hx := hne x ⟨y, Or.inl h3⟩
        have hy := hne y ⟨x, Or.inr h3⟩
        rw [u1, u1, if_neg (by simp [hx]), if_neg (by simp [hy])]
        exact hedge1 x y h3
      · simp only [List.mem_singleton, Prod.mk.injEq] at h3
        rw [h3.1, h3.2, hj0, hj1]
  · obtain ⟨p1, hp1⟩ := Option.ne_none_iff_exists'.1 hn1
    have e2 : (if (h1.ptr j1).isNone = true then setPtr (insertAt h1 p0 j1) j1 p0 else h1) = h1 :=
      if_neg (by rw [hp1]; simp)
    rw [e2]
    simp only [hp0, hp1, Option.getD_some]
    by_cases hpp : p0 = p1
    · rw [if_pos (by rw [hpp])]
      subst hpp
      refine ⟨hi1.lt, hi1.sets, ?_, fun x y p hx hy => hlk _ _ (hi1.linked x y p hx hy), ?_⟩
      · intro x
        rw [htouch, hi1.dom x]
        constructor
        · exact Or.inl
        · rintro (h | rfl)
          · exact h
          · rw [← hi1.dom, hp1]; rfl
      · intro x y hxy
        rcases List.mem_append.1 hxy with h3 | h3
        · exact hedge1 x y h3
        · simp only [List.mem_singleton, Prod.mk.injEq] at h3
          rw [h3.1, h3.2, hp0, hp1]
    · rw [if_neg (by simpa using hpp)]
      obtain ⟨u1, u2, u3, u4⟩ := unify_spec p0 (h1.set p1) h1
      generalize unify p0 h1 (h1.set p1) = h2 at *
      have hset1 := hi1.sets j1 p1 hp1
      have u1' : ∀ y, h2.ptr y = if h1.ptr y = some p1 then some p0 else h1.ptr y := by
        intro y
        rw [u1 y]
        by_cases hy : y ∈ h1.set p1
        · rw [if_pos hy, if_pos ((hset1 y).1 hy)]
        · rw [if_neg hy, if_neg fun h => hy ((hset1 y).2 h)]
      have hj0 : h2.ptr j0 = some p0 := by
        rw [u1', hp0]; split <;> rfl
      have hj1 : h2.ptr j1 = some p0 := by rw [u1', if_pos hp1]
      have hsome : ∀ x p, h2.ptr x = some p → (p = p0 ∧ (h1.ptr x = some p0 ∨ h1.ptr x = some p1)) ∨
          (p ≠ p0 ∧ p ≠ p1 ∧ h1.ptr x = some p) := by
        intro x p hp
        rw [u1'] at hp
        by_cases hx : h1.ptr x = some p1
        · rw [if_pos hx] at hp; exact Or.inl ⟨(Option.some.inj hp).symm, Or.inr hx⟩
        · rw [if_neg hx] at hp
          by_cases hq : p = p0
          · subst hq; exact Or.inl ⟨rfl, Or.inl hp⟩
          · exact Or.inr ⟨hq, fun e => hx (e ▸ hp), hp⟩
      constructor
      · intro x p hp
        rw [u4]
        rcases hsome x p hp with ⟨rfl, -⟩ | ⟨-, -, h⟩
        · exact hi1.lt _ _ hp0
        · exact hi1.lt _ _ h
      · intro x p hp y
        rcases hsome x p hp with ⟨rfl, -⟩ | ⟨hq0, hq1, h⟩
        · rw [u3, hi1.sets j0 p hp0 y, hset1 y, u1']
          by_cases hy : h1.ptr y = some p1
          · simp [hy]
          · simp [hy]
        · rw [u2 p hq0, hi1.sets x p h y, u1']
          by_cases hy : h1.ptr y = some p1
          · rw [if_pos hy, hy]
            simp only [Option.some.injEq]
            exact ⟨fun e => absurd e.symm hq1, fun e => absurd e.symm hq0⟩
          · rw [if_neg hy]
      · intro x
        rw [htouch, ← hi1.dom x, u1']
        by_cases hx : h1.ptr x = some p1
        · rw [if_pos hx, hx]; simp
        · rw [if_neg hx]
          constructor
          · exact Or.inl
          · rintro (h | rfl)
            · exact h
            · rw [hp1]; rfl
      · have hto : ∀ x, h2.ptr x = some p0 → Linked (E ++ [(j0, j1)]) j0 x := by
          intro x hx
          rcases hsome x p0 hx with ⟨-, h | h⟩ | ⟨h, -⟩
          · exact hlk _ _ (hi1.linked j0 x p0 hp0 h)
          · exact Relation.EqvGen.trans _ _ _ hnew (hlk _ _ (hi1.linked j1 x p1 hp1 h))
          · exact absurd rfl h
        intro x y p hx hy
        rcases hsome x p hx with ⟨rfl, -⟩ | ⟨hq0, -, hx'⟩
        · exact Relation.EqvGen.trans _ _ _ (Relation.EqvGen.symm _ _ (hto x hx)) (hto y hy)
        · rcases hsome y p hy with ⟨h, -⟩ | ⟨-, -, hy'⟩
          · exact absurd h hq0
          · exact hlk _ _ (hi1.linked x y p hx' hy')
      · intro x y hxy
        rcases List.mem_append.1 hxy with h3 | h3
        · have := hedge1 x y h3
          rw [u1', u1', this]
        · simp only [List.mem_singleton, Prod.mk.injEq] at h3
          rw [h3.1, h3.2, hj0, hj1]

theorem inv_links (E : List (Nat × Nat)) :
    Inv E (E.foldl (fun h e => link h e.1 e.2) ⟨fun _ => none, fun _ => [], 0⟩) := by
  have : ∀ (F E : List (Nat × Nat)) (h : Heap), Inv E h → Inv (E ++ F) (F.foldl (fun h e => link h e.1 e.2) h) := by
    intro F
    induction F with
    | nil => intro E h hi; rw [List.append_nil]; exact hi
    | cons e F ih =>
      intro E h hi
      rw [List.foldl_cons]
      have := ih (E ++ [e]) (link h e.1 e.2) (inv_link hi e.1 e.2)
      rwa [List.append_assoc] at this
  exact this E [] _ inv_nil

/-! ### Self-neighborhoods -/

/-- Number of initialised sites. -/
def initCount (h : Heap) (n : Nat) : Nat := ((List.range n).filter fun i => (h.ptr i).isSome).length

/-- State invariant of the second phase: `D` are the sites paired with themselves so far. -/
structure Inv2 (E : List (Nat × Nat)) (n : Nat) (hc : Heap × Nat) : Prop where
  inv : ∃ D : List Nat, Inv (E ++ D.map fun x => (x, x)) hc.1
  cnt : hc.2 = initCount hc.1 n

theorem initCount_new (h : Heap) (n x : Nat) (hx : x < n) (hn : h.ptr x = none) :
    initCount (newSet h x) n = initCount h n + 1 := by
  unfold initCount
  have hptr : ∀ y, (newSet h x).ptr y = if y = x then some h.next else h.ptr y := by
    intro y; unfold newSet; simp only [Function.update_apply]
  induction n with
  | zero => omega
  | succ n ih =>
    rw [List.range_succ, List.filter_append, List.filter_append, List.length_append, List.length_append]
    by_cases hxn : x = n
    · subst hxn
      have e1 : ((List.range x).filter fun i => ((newSet h x).ptr i).isSome) =
          (List.range x).filter fun i => (h.ptr i).isSome := by
        apply List.filter_congr
        intro y hy
        rw [hptr, if_neg (by have := List.mem_range.1 hy; omega)]
      rw [e1]
      simp [hptr, hn]
    · rw [ih (by omega)]
      have : (newSet h x).ptr n = h.ptr n := by rw [hptr, if_neg (fun e => hxn e.symm)]
      simp only [List.filter_cons, this, List.filter_nil]
      omega

theorem initSet_spec {E : List (Nat × Nat)} {n : Nat} {hc : Heap × Nat} (hi : Inv2 E n hc) (x : Nat) (hx : x < n) :
    Inv2 E n (initSet hc x) ∧ (∀ y, ((initSet hc x).1.ptr y).isSome ↔ (hc.1.ptr y).isSome ∨ y = x) := by
  unfold initSet
  by_cases hn : hc.1.ptr x = none
  · rw [if_pos (by rw [hn]; rfl)]
    obtain ⟨D, hD⟩ := hi.inv
    refine ⟨⟨⟨D ++ [x], ?_⟩, ?_⟩, ?_⟩
    · have := inv_newSet hD x hn
      rw [List.map_append, ← List.append_assoc]; exact this
    · change hc.2 + 1 = initCount (newSet hc.1 x) n
      rw [initCount_new hc.1 n x hx hn, hi.cnt]
    · intro y
      simp only [newSet, Function.update_apply]
      by_cases hy : y = x <;> simp [hy]
  · rw [if_neg (by simpa using hn)]
    refine ⟨hi, fun y => ?_⟩
    constructor
    · exact Or.inl
    · rintro (h | rfl)
      · exact h
      · exact Option.isSome_iff_ne_none.2 hn

theorem selfInner_spec {E : List (Nat × Nat)} {n : Nat} (mask : Nat → Nat → Bool) (j0 : Nat) (h0 : j0 < n)
    (l : List Nat) (hl : ∀ j ∈ l, j < n) (hc : Heap × Nat) (hi : Inv2 E n hc) :
    Inv2 E n (selfInner mask j0 hc l) ∧
    (∀ y, ((selfInner mask j0 hc l).1.ptr y).isSome ↔ (hc.1.ptr y).isSome ∨
      (∃ j ∈ l, mask j0 j = true ∧ (y = j0 ∨ y = j))) := by
  induction l generalizing hc with
  | nil => exact ⟨hi, fun y => by simp [selfInner]⟩
  | cons j1 l ih =>
    have hl' : ∀ j ∈ l, j < n := fun j hj => hl j (List.mem_cons_of_mem _ hj)
    unfold selfInner
    by_cases hb : ((hc.1.ptr j0).isSome && (hc.1.ptr j1).isSome) = true
    · rw [if_pos hb]
      obtain ⟨h1, h2⟩ := ih hl' hc hi
      refine ⟨h1, fun y => ?_⟩
      rw [h2 y]
      simp only [Bool.and_eq_true] at hb
      simp only [List.mem_cons, exists_eq_or_imp]
      constructor
      · rintro (h | h)
        · exact Or.inl h
        · exact Or.inr (Or.inr h)
      · rintro (h | ⟨-, rfl | rfl⟩ | h)
        · exact Or.inl h
        · exact Or.inl hb.1
        · exact Or.inl hb.2
        · exact Or.inr h
    · rw [if_neg hb]
      by_cases hm : mask j0 j1 = true
      · rw [if_neg (by simp [hm])]
        obtain ⟨a1, a2⟩ := initSet_spec hi j0 h0
        obtain ⟨b1, b2⟩ := initSet_spec a1 j1 (hl j1 (by simp))
        obtain ⟨h1, h2⟩ := ih hl' _ b1
        refine ⟨h1, fun y => ?_⟩
        rw [h2 y, b2 y, a2 y]
        simp only [List.mem_cons, exists_eq_or_imp, hm, true_and, or_assoc]
      · rw [if_pos (by simpa using hm)]
        obtain ⟨h1, h2⟩ := ih hl' hc hi
        refine ⟨h1, fun y => ?_⟩
        rw [h2 y]
        simp [hm]

theorem full_of_count (h : Heap) (n : Nat) (hc : n ≤ initCount h n) : ∀ y < n, (h.ptr y).isSome := by
  intro y hy
  unfold initCount at hc
  have hlen : ((List.range n).filter fun i => (h.ptr i).isSome).length = (List.range n).length := by
    apply le_antisymm (List.length_filter_le _ _)
    simpa using hc
  have := List.length_filter_eq_length_iff.1 hlen
  exact this y (List.mem_range.2 hy)

theorem selfOuter_spec {E : List (Nat × Nat)} {n : Nat} (mask : Nat → Nat → Bool) (l : List Nat)
    (hl : ∀ j ∈ l, j < n) (hc : Heap × Nat) (hi : Inv2 E n hc) :
    Inv2 E n (selfOuter mask n hc l) ∧
    (∀ y < n, ((selfOuter mask n hc l).1.ptr y).isSome ↔ (hc.1.ptr y).isSome ∨
      (∃ j0 ∈ l, ∃ j1 < n, j0 ≤ j1 ∧ mask j0 j1 = true ∧ (y = j0 ∨ y = j1))) := by
  induction l generalizing hc with
  | nil => exact ⟨hi, fun y _ => by simp [selfOuter]⟩
  | cons j0 l ih =>
    have hl' : ∀ j ∈ l, j < n := fun j hj => hl j (List.mem_cons_of_mem _ hj)
    unfold selfOuter
    by_cases hn : hc.2 < n
    · rw [if_pos hn]
      obtain ⟨a1, a2⟩ := selfInner_spec mask j0 (hl j0 (by simp)) ((List.range n).filter fun j1 => decide (j0 ≤ j1))
        (fun j hj => List.mem_range.1 (List.mem_filter.1 hj).1) hc hi
      obtain ⟨h1, h2⟩ := ih hl' _ a1
      refine ⟨h1, fun y hy => ?_⟩
      rw [h2 y hy, a2 y]
      simp only [List.mem_filter, List.mem_range, decide_eq_true_eq, List.mem_cons, exists_eq_or_imp]
      constructor
      · rintro ((h | ⟨j, ⟨h1, h2⟩, h3, h4⟩) | h)
        · exact Or.inl h
        · exact Or.inr (Or.inl ⟨j, h1, h2, h3, h4⟩)
        · exact Or.inr (Or.inr h)
      · rintro (h | ⟨j, h1, h2, h3, h4⟩ | h)
        · exact Or.inl (Or.inl h)
        · exact Or.inl (Or.inr ⟨j, ⟨h1, h2⟩, h3, h4⟩)
        · exact Or.inr h
    · rw [if_neg hn]
      refine ⟨hi, fun y hy => ?_⟩
      have : (hc.1.ptr y).isSome := full_of_count hc.1 n (by rw [← hi.cnt]; omega) y hy
      simp [this]

theorem collect_spec (h : Heap) (dup l : List Nat) :
    ∃ ps : List Nat, collect h dup l = ps.map h.set ∧ ps.Nodup ∧ (∀ p ∈ ps, p ∉ dup ∧ ∃ x ∈ l, h.ptr x = some p) ∧
      ∀ x ∈ l, ∀ p, h.ptr x = some p → p ∈ ps ∨ p ∈ dup := by
  induction l generalizing dup with
  | nil => exact ⟨[], rfl, List.nodup_nil, by simp, by simp⟩
  | cons x l ih =>
    unfold collect
    cases hp : h.ptr x with
    | none =>
      simp only
      obtain ⟨ps, h1, h2, h3, h4⟩ := ih dup
      refine ⟨ps, h1, h2, fun p hpp => ?_, ?_⟩
      · obtain ⟨h5, y, hy, h6⟩ := h3 p hpp
        exact ⟨h5, y, List.mem_cons_of_mem _ hy, h6⟩
      · intro y hy p hyp
        rcases List.mem_cons.1 hy with rfl | hy
        · rw [hp] at hyp; simp at hyp
        · exact h4 y hy p hyp
    | some q =>
      simp only
      by_cases hq : q ∈ dup
      · rw [if_pos hq]
        obtain ⟨ps, h1, h2, h3, h4⟩ := ih dup
        refine ⟨ps, h1, h2, fun p hpp => ?_, ?_⟩
        · obtain ⟨h5, y, hy, h6⟩ := h3 p hpp
          exact ⟨h5, y, List.mem_cons_of_mem _ hy, h6⟩
        · intro y hy p hyp
          rcases List.mem_cons.1 hy with rfl | hy
          · rw [hp] at hyp; rw [← Option.some.inj hyp]; exact Or.inr hq
          · exact h4 y hy p hyp
      · rw [if_neg hq]
        obtain ⟨ps, h1, h2, h3, h4⟩ := ih (q :: dup)
        refine ⟨q :: ps, by rw [h1]; rfl, ?_, ?_, ?_⟩
        · refine List.nodup_cons.2 ⟨fun hm => (h3 q hm).1 (by simp), h2⟩
        · intro p hpp
          rcases List.mem_cons.1 hpp with rfl | hpp
          · exact ⟨hq, x, by simp, hp⟩
          · obtain ⟨h5, y, hy, h6⟩ := h3 p hpp
            exact ⟨fun hm => h5 (List.mem_cons_of_mem _ hm), y, List.mem_cons_of_mem _ hy, h6⟩
        · intro y hy p hyp
          rcases List.mem_cons.1 hy with rfl | hy
          · rw [hp] at hyp; rw [← Option.some.inj hyp]; left; simp
          · rcases h4 y hy p hyp with h | h
            · left; exact List.mem_cons_of_mem _ h
            · rcases List.mem_cons.1 h with rfl | h
              · left; simp
              · exact Or.inr h

/-- Reflexive pairs do not link anything. -/
theorem linked_diag (E : List (Nat × Nat)) (D : List Nat) (x y : Nat) :
    Linked (E ++ D.map fun x => (x, x)) x y ↔ Linked E x y := by
  constructor
  · intro hl
    unfold Linked at *
    induction hl with
    | rel x y hxy =>
      rcases List.mem_append.1 hxy with h1 | h1
      · exact Relation.EqvGen.rel _ _ h1
      · obtain ⟨z, -, hz⟩ := List.mem_map.1 h1
        simp only [Prod.mk.injEq] at hz
        rw [← hz.1, ← hz.2]; exact Relation.EqvGen.refl _
    | refl x => exact Relation.EqvGen.refl x
    | symm x y _ ih => exact Relation.EqvGen.symm _ _ ih
    | trans x y z _ _ ih1 ih2 => exact Relation.EqvGen.trans _ _ _ ih1 ih2
  · exact Linked.mono fun e he => List.mem_append_left _ he

/-- C20. The returned sets are non-empty and pairwise disjoint; each is the set of all sites linked by a chain
of overlapping pairs to any one of its members; a site is in one of them exactly if it overlaps with something
(possibly its own image) or some pair with it is not masked out. -/
theorem neighborhoods_components (n : Nat) (mask : Nat → Nat → Bool) (E : List (Nat × Nat)) :
    (∀ S ∈ neighborhoodsOf n mask E, S ≠ []) ∧
    (neighborhoodsOf n mask E).Pairwise (fun S T => ∀ x, x ∈ S → x ∉ T) ∧
    (∀ S ∈ neighborhoodsOf n mask E, ∀ x ∈ S, ∀ y, y ∈ S ↔ Linked E x y) ∧
    (∀ x < n, (∃ S ∈ neighborhoodsOf n mask E, x ∈ S) ↔
      (∃ e ∈ E, x = e.1 ∨ x = e.2) ∨ ∃ j < n, mask (min x j) (max x j) = true) := by
  unfold neighborhoodsOf
  simp only
  have hi0 := inv_links E
  generalize E.foldl (fun h e => link h e.1 e.2) ⟨fun _ => none, fun _ => [], 0⟩ = h0 at *
  have hi : Inv2 E n (h0, ((List.range n).filter fun i => (h0.ptr i).isSome).length) :=
    ⟨⟨[], by simpa using hi0⟩, rfl⟩
  obtain ⟨r1, r2⟩ := selfOuter_spec mask (List.range n) (fun j hj => List.mem_range.1 hj) _ hi
  generalize selfOuter mask n (h0, ((List.range n).filter fun i => (h0.ptr i).isSome).length) (List.range n) = r at *
  obtain ⟨⟨D, hD⟩, -⟩ := r1
  obtain ⟨ps, c1, c2, c3, c4⟩ := collect_spec r.1 [] (List.range n)
  rw [c1]
  have hcomp : ∀ p ∈ ps, ∀ x, x ∈ r.1.set p ↔ r.1.ptr x = some p := by
    intro p hp x
    obtain ⟨-, z, -, hz⟩ := c3 p hp
    exact hD.sets z p hz x
  refine ⟨?_, ?_, ?_, ?_⟩
  · intro S hS
    obtain ⟨p, hp, rfl⟩ := List.mem_map.1 hS
    obtain ⟨-, z, -, hz⟩ := c3 p hp
    have := (hcomp p hp z).2 hz
    exact List.ne_nil_of_mem this
  · rw [List.pairwise_map]
    refine List.Pairwise.imp_of_mem ?_ c2
    intro p q hp hq hpq x hx hx'
    rw [hcomp p hp] at hx
    rw [hcomp q hq, hx] at hx'
    exact hpq (Option.some.inj hx')
  · intro S hS x hx y
    obtain ⟨p, hp, rfl⟩ := List.mem_map.1 hS
    rw [hcomp p hp] at hx ⊢
    rw [← linked_diag E D]
    constructor
    · intro hy; exact hD.linked x y p hx hy
    · intro hl
      rw [← linked_ptr hD hl]; exact hx
  · intro x hx
    have hsome : (∃ S ∈ ps.map r.1.set, x ∈ S) ↔ (r.1.ptr x).isSome := by
      constructor
      · rintro ⟨S, hS, hxS⟩
        obtain ⟨p, hp, rfl⟩ := List.mem_map.1 hS
        rw [hcomp p hp] at hxS
        rw [hxS]; rfl
      · intro h
        obtain ⟨p, hp⟩ := Option.isSome_iff_exists.1 h
        have hpp : p ∈ ps := by
          rcases c4 x (List.mem_range.2 hx) p hp with h | h
          · exact h
          · simp at h
        exact ⟨r.1.set p, List.mem_map.2 ⟨p, hpp, rfl⟩, (hcomp p hpp x).2 hp⟩
    rw [hsome, r2 x hx]
    have h1 : (h0.ptr x).isSome ↔ ∃ e ∈ E, x = e.1 ∨ x = e.2 := by
      rw [hi0.dom x]
      unfold Touched
      constructor
      · rintro ⟨y, h | h⟩
        · exact ⟨_, h, Or.inl rfl⟩
        · exact ⟨_, h, Or.inr rfl⟩
      · rintro ⟨⟨a, b⟩, he, rfl | rfl⟩
        · exact ⟨b, Or.inl he⟩
        · exact ⟨a, Or.inr he⟩
    have h2 : (∃ j0 ∈ List.range n, ∃ j1 < n, j0 ≤ j1 ∧ mask j0 j1 = true ∧ (x = j0 ∨ x = j1)) ↔
        ∃ j < n, mask (min x j) (max x j) = true := by
      constructor
      · rintro ⟨a, ha, b, hb, hab, hm, rfl | rfl⟩
        · exact ⟨b, hb, by rw [min_eq_left hab, max_eq_right hab]; exact hm⟩
        · exact ⟨a, List.mem_range.1 ha, by rw [min_eq_right hab, max_eq_left hab]; exact hm⟩
      · rintro ⟨j, hj, hm⟩
        by_cases hxj : x ≤ j
        · rw [min_eq_left hxj, max_eq_right hxj] at hm
          exact ⟨x, List.mem_range.2 hx, j, hj, hxj, hm, Or.inl rfl⟩
        · have hjx : j ≤ x := by omega
          rw [min_eq_right hjx, max_eq_left hjx] at hm
          exact ⟨j, List.mem_range.2 hj, x, hx, hjx, hm, Or.inr rfl⟩
    rw [← h2]
    change ((h0.ptr x).isSome = true ∨ _) ↔ _
    rw [h1]

variable {K : Type} [Field K] [LinearOrder K] [FloorRing K] [IsStrictOrderedRing K]

/-- C20, for the calculator: the pairs are the site pairs of the stored bonds with positive overlap. -/
theorem neighborhoods_spec (s : Stru K) (tr : List (Contrib (Bnd K)))
    (mask : Nat → Nat → Bool) :
    let E := (tr.filter fun c => decide (0 < overlapOf s.radius c)).map fun c => (c.i0, c.i1)
    let N := neighborhoods s (evalOverlap tr) mask
    (∀ S ∈ N, S ≠ []) ∧ N.Pairwise (fun S T => ∀ x, x ∈ S → x ∉ T) ∧
    (∀ S ∈ N, ∀ x ∈ S, ∀ y, y ∈ S ↔ Linked E x y) ∧
    (∀ x < s.cnt, (∃ S ∈ N, x ∈ S) ↔
      (∃ e ∈ E, x = e.1 ∨ x = e.2) ∨ ∃ j < s.cnt, mask (min x j) (max x j) = true) := by
  have he : (overlapping s (evalOverlap tr)).map (fun idx => (site0 (evalOverlap tr) idx, site1 (evalOverlap tr) idx)) =
      (tr.filter fun c => decide (0 < overlapOf s.radius c)).map fun c => (c.i0, c.i1) := by
    unfold overlapping
    rw [count_eval]
    apply range_filter_map
    intro idx c hi
    obtain ⟨-, -, -, -, h5, h6⟩ := read_back tr idx c hi
    refine ⟨?_, by rw [h5, h6]⟩
    rw [suboverlap0_eq s tr idx c hi, ← decide_not]
    exact decide_eq_decide.2 not_le
  simp only
  unfold neighborhoods
  rw [he]
  exact neighborhoods_components _ _ _

/-- Two components joined late, an isolated site, and a site masked out entirely. -/
example : neighborhoodsOf 7 (fun i j => decide (i ≠ 6 ∧ j ≠ 6)) [(0, 1), (2, 3), (4, 4), (3, 1), (1, 0)] =
    [[0, 1, 3, 2], [4], [5]] := by decide +kernel

end Verif.Overlap
