import Verif.Model.BVEqual
import Verif.Props.Equality
/-
**C111**: comparison, hashing and search of bond-valence parameters.
-/
namespace Verif.BVEqual
open Verif.Equality

/-- What a parameter says about which bond: the atoms with their valences. -/
def Param.bond (p : Param) : (String × Int) × (String × Int) := ((p.atom0, p.valence0), (p.atom1, p.valence1))

/-- Neither constant is NaN. -/
def Param.NoNan (p : Param) : Prop := p.Ro.isNan = false ∧ p.B.isNan = false

/-- Two parameters in different objects are equal exactly when neither holds NaN and they say the same. -/
theorem param_eq_iff (p q : Param) : p.eq false q = true ↔
    p.NoNan ∧ q.NoNan ∧ p.bond = q.bond ∧ p.Ro.val = q.Ro.val ∧ p.B.val = q.B.val ∧ p.ref = q.ref := by
  unfold Param.eq Param.NoNan Param.bond
  simp only [Bool.false_or, Bool.and_eq_true, beq_iff_eq, Fl.eq_iff, Prod.mk.injEq]
  tauto

/-- Equality is symmetric and transitive, and reflexive without NaN; an object always equals itself; `!=` is its negation. -/
theorem param_eq_equiv :
    (∀ p : Param, p.eq true p = true ∧ p.ne true p = false) ∧ (∀ p : Param, p.eq false p = true ↔ p.NoNan) ∧
    (∀ p q : Param, p.eq false q = q.eq false p) ∧ (∀ p q : Param, p.ne false q = true ↔ ¬ p.eq false q = true) ∧
    (∀ p q r : Param, p.eq false q = true → q.eq false r = true → p.eq false r = true) := by
  refine ⟨fun p => ⟨rfl, rfl⟩, ?_, ?_, ?_, ?_⟩
  · intro p
    rw [param_eq_iff]
    exact ⟨fun h => h.1, fun h => ⟨h, h, rfl, rfl, rfl, rfl⟩⟩
  · intro p q
    rw [Bool.eq_iff_iff, param_eq_iff, param_eq_iff]
    constructor <;> rintro ⟨h1, h2, h3, h4, h5, h6⟩ <;> exact ⟨h2, h1, h3.symm, h4.symm, h5.symm, h6.symm⟩
  · intro p q
    unfold Param.ne
    cases p.eq false q <;> simp
  · intro p q r h1 h2
    rw [param_eq_iff] at *
    obtain ⟨a1, a2, a3, a4, a5, a6⟩ := h1
    obtain ⟨b1, b2, b3, b4, b5, b6⟩ := h2
    exact ⟨a1, b2, a3.trans b3, a4.trans b4, a5.trans b5, a6.trans b6⟩

/-- The key of the sets is the bond alone, whatever object it is in. -/
theorem bond_equal_iff (same : Bool) (p q : Param) (hs : same = true → p = q) : p.bondEqual same q = true ↔ p.bond = q.bond := by
  have h : p.bondEqual false q = true ↔ p.bond = q.bond := by
    unfold Param.bondEqual Param.bond
    simp only [Bool.false_or, Bool.and_eq_true, beq_iff_eq, Prod.mk.injEq]
    tauto
  cases same with
  | false => exact h
  | true => exact ⟨fun _ => by rw [hs rfl], fun _ => rfl⟩

/-- Equal parameters are the same key. -/
theorem bond_of_eq (p q : Param) (h : p.eq false q = true) : p.bondEqual false q = true :=
  (bond_equal_iff false p q (by simp)).2 ((param_eq_iff p q).1 h).2.2.1

variable (str : String → Nat) (int : Int → Nat) (combine : Nat → Nat → Nat)

/-- Equal keys have equal hashes. -/
theorem hash_of_bond (p q : Param) (h : p.bond = q.bond) : p.bondHash str int combine = q.bondHash str int combine := by
  simp only [Param.bond, Prod.mk.injEq] at h
  unfold Param.bondHash
  rw [h.1.1, h.1.2, h.2.1, h.2.2]

/-- The search by hash finds a parameter exactly when the set has one for the bond, and finds only such. -/
theorem find_bond (l : List Param) (q : Param) :
    (∀ p, find str int combine l q = some p → p ∈ l ∧ p.bond = q.bond) ∧ (find str int combine l q = none ↔ ∀ p ∈ l, p.bond ≠ q.bond) := by
  unfold find
  refine ⟨?_, ?_⟩
  · intro p hp
    have h1 := List.find?_some hp
    have h2 := List.mem_of_find?_eq_some hp
    exact ⟨(List.mem_filter.1 h2).1, (bond_equal_iff false p q (by simp)).1 h1⟩
  · rw [List.find?_eq_none]
    constructor
    · intro h p hp hb
      exact h p (List.mem_filter.2 ⟨hp, by simp [hash_of_bond str int combine p q hb]⟩) ((bond_equal_iff false p q (by simp)).2 hb)
    · intro h p hp hb
      exact h p (List.mem_filter.1 hp).1 ((bond_equal_iff false p q (by simp)).1 hb)

/-- What is found is the one parameter of the bond when the set has no two for one bond. -/
theorem find_unique (l : List Param) (hl : ∀ p ∈ l, ∀ q ∈ l, p.bond = q.bond → p = q) (p q : Param) (hp : p ∈ l) (h : p.bond = q.bond) :
    find str int combine l q = some p := by
  obtain ⟨h1, h2⟩ := find_bond str int combine l q
  cases e : find str int combine l q with
  | none => exact absurd h (h2.1 e p hp)
  | some r => rw [hl r (h1 r e).1 p hp ((h1 r e).2.trans h.symm)]

/-- The constructor puts the atom of higher valence first, and keeps the two atoms. -/
theorem make_order (a0 : String) (v0 : Int) (a1 : String) (v1 : Int) (Ro B : Fl) (ref : String) : let p := Param.make a0 v0 a1 v1 Ro B ref
    p.valence1 ≤ p.valence0 ∧ (p.bond = ((a0, v0), (a1, v1)) ∨ p.bond = ((a1, v1), (a0, v0))) ∧ p.Ro = Ro ∧ p.B = B ∧ p.ref = ref := by
  intro p
  have e : p = Param.make a0 v0 a1 v1 Ro B ref := rfl
  unfold Param.make at e
  split at e <;> rw [e]
  · exact ⟨by dsimp only; omega, Or.inr rfl, rfl, rfl, rfl⟩
  · exact ⟨by dsimp only; omega, Or.inl rfl, rfl, rfl, rfl⟩

/-- The order of the atoms in a call makes no difference exactly when the valences differ or the atoms are the same. -/
theorem make_comm (a0 : String) (v0 : Int) (a1 : String) (v1 : Int) (Ro B : Fl) (ref : String) :
    Param.make a0 v0 a1 v1 Ro B ref = Param.make a1 v1 a0 v0 Ro B ref ↔ v0 ≠ v1 ∨ a0 = a1 := by
  unfold Param.make
  rcases lt_trichotomy v0 v1 with h | h | h
  · rw [if_pos h, if_neg (by omega)]
    exact ⟨fun _ => Or.inl (by omega), fun _ => rfl⟩
  · subst h
    simp only [lt_irrefl, if_false, Param.mk.injEq]
    constructor
    · rintro ⟨h, -⟩; exact Or.inr h
    · rintro (h | h)
      · exact absurd rfl h
      · simp [h]
  · rw [if_neg (by omega), if_pos h]
    exact ⟨fun _ => Or.inl (by omega), fun _ => rfl⟩

/-- For atoms of the same valence a parameter set for one order is not found for the other. -/
theorem same_valence_order (a0 a1 : String) (h : a0 ≠ a1) (v : Int) (Ro B : Fl) (ref : String) :
    find str int combine [Param.make a0 v a1 v Ro B ref] (Param.make a1 v a0 v Ro B ref) = none := by
  rw [(find_bond str int combine _ _).2]
  intro p hp
  rw [List.mem_singleton.1 hp]
  unfold Param.make Param.bond
  simp [h]

/-- A parameter that is found again, with a zero of either sign in it. -/
example : Param.eq false (Param.make "O" (-2) "Na" 1 (.fin 0 true) (.fin (37 / 100) false) "a") (Param.make "Na" 1 "O" (-2) (.fin 0 false) (.fin (37 / 100) false) "a") = true := by
  decide +kernel

/-- A parameter with NaN differs from its copy but is found in a set. -/
example : let p := Param.make "Na" 1 "O" (-2) .nan (.fin 1 false) ""
    p.eq false p = false ∧ find (fun _ => 0) (fun _ => 0) (fun _ _ => 0) [p] p = some p := by decide +kernel

end Verif.BVEqual
