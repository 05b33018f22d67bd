import Verif.Model.Wrappers
import Verif.Props.BondGen
import Verif.Props.Evaluator
import Mathlib.Algebra.Order.Archimedean.Real.Basic
import Mathlib.Algebra.BigOperators.Intervals
import Mathlib.Tactic.Ring
import Mathlib.Tactic.Linarith
import Mathlib.Tactic.FieldSimp
/-!
C42: the structure wrappers; C43: pair counting and total occupancy.
-/
namespace Verif.Wrappers
open Verif.R3 Verif.BondGen Verif.Diff Verif.Eval Classical

set_option linter.unusedSectionVars false

variable {P : Type}

/-! ## Specification -/

/-- `Wraps a i m y`: the object `a` is the structure with the interface `i` inside any number of
wrappers; `m` tells whether one of them is a NoMeta wrapper and `y` whether one is NoSymmetry. -/
inductive Wraps : Adapter P → Iface P → Bool → Bool → Prop
  | other (id : Nat) (i : Iface P) : Wraps (.other id i) i false false
  | noMeta (id : Nat) {s : Adapter P} {i : Iface P} {m y : Bool} : Wraps s i m y → Wraps (.noMeta id s) i true y
  | noSym (id : Nat) {s : Adapter P} {i : Iface P} {m y : Bool} : Wraps s i m y → Wraps (.noSym id s) i m true

/-- Data of a site that both wrappers must pass through. -/
structure Site where
  atomType : String
  position : V3
  occupancy : ℝ
  anisotropy : Bool
  uij : Fin 3 → Fin 3 → ℝ

/-- The site data a structure object answers. -/
def Adapter.site (a : Adapter P) (k : Nat) : Site :=
  ⟨a.siteAtomType k, a.sitePosition k, a.siteOccupancy k, a.siteAnisotropy k, a.siteUij k⟩

/-- The site data of a plain structure. -/
def Iface.site (i : Iface P) (k : Nat) : Site :=
  ⟨i.atomType k, i.position k, i.occupancy k, i.anisotropy k, i.uij k⟩

/-! ## C42 -/

theorem wraps_exists (a : Adapter P) : ∃ i m y, Wraps a i m y := by
  induction a with
  | other id i => exact ⟨i, _, _, .other id i⟩
  | noMeta id s ih => obtain ⟨i, m, y, h⟩ := ih; exact ⟨i, _, _, .noMeta id h⟩
  | noSym id s ih => obtain ⟨i, m, y, h⟩ := ih; exact ⟨i, _, _, .noSym id h⟩

/-- **C42**: any nesting of wrappers presents the sites of the wrapped structure: same number, and the
same type, position, occupancy and displacement parameters for each. -/
theorem wrapper_sites {a : Adapter P} {i : Iface P} {m y : Bool} (h : Wraps a i m y) :
    a.countSites = i.count ∧ ∀ k, a.site k = i.site k := by
  induction h with
  | other id i => exact ⟨rfl, fun _ => rfl⟩
  | noMeta id h ih => exact ih
  | noSym id h ih => exact ih

/-- **C42**: a NoSymmetry wrapper anywhere in the nesting makes every multiplicity one and the density
zero, and hides the bonds to symmetry or periodic images: the generated bonds are exactly the ones
between the listed sites in range.  Without it all three are those of the wrapped structure. -/
theorem wrapper_symmetry {a : Adapter P} {i : Iface P} {m y : Bool} (h : Wraps a i m y) (rmin rmax : ℝ) :
    (y = true → (∀ k, a.siteMultiplicity k = 1) ∧ a.numberDensity = 0 ∧
      ∀ i0 sel, (a.bonds rmin rmax i0 sel).map Bond.site1 = sel.filter fun j =>
        decide (rmin ≤ V3.distance (i.position j) (i.position i0) ∧
          V3.distance (i.position j) (i.position i0) ≤ rmax ∧
          sqrtEps < V3.distance (i.position j) (i.position i0))) ∧
    (y = false → (∀ k, a.siteMultiplicity k = i.multiplicity k) ∧ a.numberDensity = i.density ∧
      a.bonds rmin rmax = i.gen rmin rmax) := by
  induction h with
  | other id i => exact ⟨fun h => absurd h (by simp), fun _ => ⟨fun _ => rfl, rfl, rfl⟩⟩
  | noMeta id h ih => exact ih
  | noSym id h ih =>
    refine ⟨fun _ => ⟨fun _ => rfl, rfl, ?_⟩, fun h => absurd h (by simp)⟩
    intro i0 sel
    have hp := fun k => congrArg Site.position ((wrapper_sites h).2 k)
    simp only [Adapter.site, Iface.site] at hp
    simp only [Adapter.bonds]
    rw [base_loop_sites]
    simp only [hp]

/-- **C42**: a NoMeta wrapper anywhere in the nesting disables the structure's own configuration of the
calculator; without it that configuration is done unchanged. -/
theorem wrapper_meta {a : Adapter P} {i : Iface P} {m y : Bool} (h : Wraps a i m y) (p : P) :
    a.customPQConfig p = if m = true then p else i.custom p := by
  induction h with
  | other id i => rfl
  | noMeta id h ih => rfl
  | noSym id h ih => exact ih

/-- **C42**: wrapping is idempotent: a wrapped structure is returned as the same object, and the
constructor of a wrapper never nests two wrappers of the same class directly; a null pointer is wrapped
as the empty structure. -/
theorem wrapper_idempotent (id id' : Nat) (s : Option (Adapter P)) :
    nometa id' (some (nometa id s)) = nometa id s ∧
    nosymmetry id' (some (nosymmetry id s)) = nosymmetry id s ∧
    newNoMeta id' (some (nometa id s)) = newNoMeta id' s ∧
    newNoSym id' (some (nosymmetry id s)) = newNoSym id' s ∧
    (nometa id (none : Option (Adapter P))).countSites = 0 ∧
    (nosymmetry id (none : Option (Adapter P))).countSites = 0 ∧
    (nometa id (none : Option (Adapter P))).numberDensity = 0 ∧
    (nosymmetry id (none : Option (Adapter P))).numberDensity = 0 := by
  refine ⟨?_, ?_, ?_, ?_, rfl, rfl, rfl, rfl⟩
  all_goals
    rcases s with _ | s
    · rfl
    · cases s <;> rfl

/-- **C42**: what the factory functions return is a wrapper of the given structure. -/
theorem wrapper_factory (id : Nat) {s : Adapter P} {i : Iface P} {m y : Bool} (h : Wraps s i m y) :
    Wraps (nometa id (some s)) i true y ∧ Wraps (nosymmetry id (some s)) i m true := by
  constructor
  · cases h with
    | other id' i => exact .noMeta id (.other id' i)
    | noMeta id' h => exact .noMeta id' h
    | noSym id' h => exact .noMeta id (.noSym id' h)
  · cases h with
    | other id' i => exact .noSym id (.other id' i)
    | noMeta id' h => exact .noSym id (.noMeta id' h)
    | noSym id' h => exact .noSym id' h

theorem clone_aux {a : Adapter P} {i : Iface P} {m y : Bool} (h : Wraps a i m y) :
    ∀ next, Wraps (a.clone next).1 i m y := by
  induction h with
  | other id i =>
    intro next; unfold Adapter.clone; split
    · exact .other _ _
    · exact .other _ _
  | noMeta id h ih => intro next; exact .noMeta _ (ih _)
  | noSym id h ih => intro next; exact .noSym _ (ih _)

/-- **C42**: a clone of a wrapper is a wrapper of the same structure (so all the theorems here apply to it
with the same `i`, `m`, `y`), and it is a new object. -/
theorem wrapper_clone {a : Adapter P} {i : Iface P} {m y : Bool} (h : Wraps a i m y) (next : Nat)
    (hn : a.id < next) (hne : a.id ≠ 0) :
    Wraps (a.clone next).1 i m y ∧ (a.clone next).1.id ≠ a.id := by
  refine ⟨clone_aux h next, ?_⟩
  cases a with
  | other id i =>
    have hne' : id ≠ 0 := hne
    unfold Adapter.clone
    rw [if_neg hne']
    exact Nat.ne_of_gt hn
  | noMeta id s => exact Nat.ne_of_gt hn
  | noSym id s => exact Nat.ne_of_gt hn

theorem clone_next (a : Adapter P) : ∀ next : Nat, next ≤ (a.clone next).2 := by
  induction a with
  | other id i =>
    intro next
    unfold Adapter.clone
    split
    · exact le_refl _
    · exact Nat.le_succ _
  | noMeta id s ih => intro next; exact le_trans (Nat.le_succ _) (ih (next + 1))
  | noSym id s ih => intro next; exact le_trans (Nat.le_succ _) (ih (next + 1))

/-- The addresses of an object and of all objects it wraps, the shared empty structure (address 0) excepted. -/
def Adapter.objects : Adapter P → List Nat
  | .other id _ => if id = 0 then [] else [id]
  | .noMeta id s => id :: s.objects
  | .noSym id s => id :: s.objects

/-- **C42**: a clone shares no object with its source or with any other structure made before: all its objects are new, they are
different from each other, and there are as many as in the source. -/
theorem wrapper_clone_deep (a : Adapter P) : ∀ next : Nat, (hnext : 0 < next) →
    (a.clone next).1.objects.Nodup ∧ (∀ n ∈ (a.clone next).1.objects, next ≤ n ∧ n < (a.clone next).2) ∧
    (a.clone next).1.objects.length = a.objects.length := by
  induction a with
  | other id i =>
    intro next hnext
    unfold Adapter.clone
    by_cases h : id = 0
    · subst h
      simp [Adapter.objects]
    · rw [if_neg h]
      have h' : next ≠ 0 := by omega
      simp [Adapter.objects, h, h']
  | noMeta id s ih =>
    intro next hnext
    obtain ⟨h1, h2, h3⟩ := ih (next + 1) (by omega)
    have hlt : next < (s.clone (next + 1)).2 := clone_next s (next + 1)
    refine ⟨List.nodup_cons.2 ⟨fun h => ?_, h1⟩, ?_, ?_⟩
    · have := (h2 _ h).1
      omega
    · intro n hn
      rcases List.mem_cons.1 hn with rfl | hn
      · exact ⟨le_refl _, hlt⟩
      · exact ⟨by have := (h2 n hn).1; omega, (h2 n hn).2⟩
    · show _ + 1 = _ + 1
      rw [h3]
  | noSym id s ih =>
    intro next hnext
    obtain ⟨h1, h2, h3⟩ := ih (next + 1) (by omega)
    have hlt : next < (s.clone (next + 1)).2 := clone_next s (next + 1)
    refine ⟨List.nodup_cons.2 ⟨fun h => ?_, h1⟩, ?_, ?_⟩
    · have := (h2 _ h).1
      omega
    · intro n hn
      rcases List.mem_cons.1 hn with rfl | hn
      · exact ⟨le_refl _, hlt⟩
      · exact ⟨by have := (h2 n hn).1; omega, (h2 n hn).2⟩
    · show _ + 1 = _ + 1
      rw [h3]

/-- **C42**: the difference of two different wrappers of the same class is that of the wrapped
structures; of the same object it is empty; of objects of different classes it is the complete
replacement, which does not allow a fast update. -/
theorem wrapper_diff (dOther : Iface P → Iface P → SD) (n n' : Nat) (s t : Adapter P) :
    (n ≠ n' →
      (∀ f, (f = Adapter.noMeta ∨ f = Adapter.noSym) →
        ((f n s).diff dOther (f n' t)).pop0 = (s.diff dOther t).pop0 ∧
        ((f n s).diff dOther (f n' t)).add1 = (s.diff dOther t).add1 ∧
        ((f n s).diff dOther (f n' t)).method = (s.diff dOther t).method ∧
        ((f n s).diff dOther (f n' t)).n0 = s.countSites ∧
        ((f n s).diff dOther (f n' t)).n1 = t.countSites) ∧
      ((Adapter.noMeta n s).diff dOther (.noSym n' t)).allowsFast = false ∧
      ((Adapter.noSym n s).diff dOther (.noMeta n' t)).allowsFast = false) ∧
    (∀ a : Adapter P, (a.diff dOther a).pop0 = [] ∧ (a.diff dOther a).add1 = [] ∧
      (a.diff dOther a).method = .sideBySide) := by
  have hf : ∀ n0 n1, (baseDiff false n0 n1).allowsFast = false := by
    intro n0 n1; simp [baseDiff, SD.allowsFast]
  constructor
  · intro hn
    refine ⟨?_, ?_, ?_⟩
    · rintro f (rfl | rfl)
      · have e : (Adapter.noMeta n s).diff dOther (.noMeta n' t)
            = { s.diff dOther t with n0 := s.countSites, n1 := t.countSites } := by
          conv => lhs; unfold Adapter.diff
          rw [if_neg (show ¬ n = (Adapter.noMeta n' t).id from hn)]
        rw [e]; exact ⟨rfl, rfl, rfl, rfl, rfl⟩
      · have e : (Adapter.noSym n s).diff dOther (.noSym n' t)
            = { s.diff dOther t with n0 := s.countSites, n1 := t.countSites } := by
          conv => lhs; unfold Adapter.diff
          rw [if_neg (show ¬ n = (Adapter.noSym n' t).id from hn)]
        rw [e]; exact ⟨rfl, rfl, rfl, rfl, rfl⟩
    · unfold Adapter.diff
      rw [if_neg (show ¬ n = (Adapter.noSym n' t).id from hn)]
      exact hf _ _
    · unfold Adapter.diff
      rw [if_neg (show ¬ n = (Adapter.noMeta n' t).id from hn)]
      exact hf _ _
  · intro a
    have e : ∃ n0 n1, a.diff dOther a = baseDiff true n0 n1 := by
      cases a with
      | other id i => exact ⟨i.count, i.count, by unfold Adapter.diff; exact if_pos rfl⟩
      | noMeta id s => exact ⟨s.countSites, s.countSites, by unfold Adapter.diff; exact if_pos rfl⟩
      | noSym id s => exact ⟨s.countSites, s.countSites, by unfold Adapter.diff; exact if_pos rfl⟩
    obtain ⟨n0, n1, e⟩ := e
    rw [e]; exact ⟨rfl, rfl, rfl⟩

/-- A difference is sound for two structures when the sites it does not list carry the same data in the
same number; for a side-by-side difference also at the same indices. -/
def Sound (d : SD) (n0 n1 : Nat) (data0 data1 : Nat → Site) : Prop :=
  d.n0 = n0 ∧ d.n1 = n1 ∧
  (((List.range n0).filter (fun k => decide (k ∉ d.pop0))).map data0).Perm
    (((List.range n1).filter (fun k => decide (k ∉ d.add1))).map data1) ∧
  (d.method = .sideBySide → ∀ k, (k < n0 ∧ k ∉ d.pop0 ↔ k < n1 ∧ k ∉ d.add1) ∧
    (k < n0 → k ∉ d.pop0 → data0 k = data1 k))

theorem sound_complete (n0 n1 : Nat) (data0 data1 : Nat → Site) : Sound (baseDiff false n0 n1) n0 n1 data0 data1 := by
  refine ⟨rfl, rfl, ?_, fun h => absurd h (by simp [baseDiff])⟩
  have : ∀ n : Nat, (List.range n).filter (fun k => decide (k ∉ List.range n)) = [] := by
    intro n
    rw [List.filter_eq_nil_iff]
    intro k hk
    simp only [decide_eq_true_eq, not_not]
    exact hk
  show (List.map data0 ((List.range n0).filter (fun k => decide (k ∉ List.range n0)))).Perm
    (List.map data1 ((List.range n1).filter (fun k => decide (k ∉ List.range n1))))
  rw [this, this]
  exact List.Perm.refl _

theorem sound_same (n : Nat) (data : Nat → Site) : Sound (baseDiff true n n) n n data data := by
  refine ⟨rfl, rfl, List.Perm.refl _, fun _ k => ⟨Iff.rfl, fun _ _ => rfl⟩⟩

/-- The object and everything it holds live in the memory `heap`. -/
def InHeap (heap : Nat → Adapter P) : Adapter P → Prop
  | .other n i => heap n = .other n i
  | .noMeta n s => heap n = .noMeta n s ∧ InHeap heap s
  | .noSym n s => heap n = .noSym n s ∧ InHeap heap s

theorem inHeap_id {heap : Nat → Adapter P} {a : Adapter P} (h : InHeap heap a) : heap a.id = a := by
  cases a with
  | other n i => exact h
  | noMeta n s => exact h.1
  | noSym n s => exact h.1

/-- **C42**: for any two structure objects in memory the difference is sound whenever the comparison of
plain structures is. -/
theorem wrapper_diff_sound (dOther : Iface P → Iface P → SD)
    (hd : ∀ i j, Sound (dOther i j) i.count j.count i.site j.site) (heap : Nat → Adapter P) (a b : Adapter P)
    (ha : InHeap heap a) (hb : InHeap heap b) :
    Sound (a.diff dOther b) a.countSites b.countSites a.site b.site := by
  have key : ∀ u v : Adapter P, InHeap heap u → InHeap heap v → u.id = v.id →
      Sound (baseDiff true u.countSites v.countSites) u.countSites v.countSites u.site v.site := by
    intro u v hu hv h
    have : u = v := by rw [← inHeap_id hu, ← inHeap_id hv, h]
    rw [this]; exact sound_same _ _
  induction a generalizing b with
  | other n i =>
    unfold Adapter.diff
    split
    · rename_i h; exact key (.other n i) b ha hb h
    · cases b with
      | other n' j => exact hd i j
      | noMeta n' t => exact sound_complete _ _ _ _
      | noSym n' t => exact sound_complete _ _ _ _
  | noMeta n s ih =>
    unfold Adapter.diff
    split
    · rename_i h; exact key (.noMeta n s) b ha hb h
    · cases b with
      | other n' j => exact sound_complete _ _ _ _
      | noMeta n' t => obtain ⟨_, _, h3, h4⟩ := ih t ha.2 hb.2; exact ⟨rfl, rfl, h3, h4⟩
      | noSym n' t => exact sound_complete _ _ _ _
  | noSym n s ih =>
    unfold Adapter.diff
    split
    · rename_i h; exact key (.noSym n s) b ha hb h
    · cases b with
      | other n' j => exact sound_complete _ _ _ _
      | noMeta n' t => exact sound_complete _ _ _ _
      | noSym n' t => obtain ⟨_, _, h3, h4⟩ := ih t ha.2 hb.2; exact ⟨rfl, rfl, h3, h4⟩

/-- A periodic-like structure of two sites with multiplicity 4 and a configuration hook. -/
noncomputable def exIface : Iface Nat where
  count := 2
  atomType k := if k = 0 then "Na" else "Cl"
  position k := ⟨2 * (k : ℝ), 0, 0⟩
  multiplicity _ := 4
  occupancy _ := 1
  anisotropy _ := false
  uij _ _ _ := 0
  density := 3
  custom p := p + 1
  gen _ _ _ _ := []

/-- The theorems apply to a nest of three wrappers over it: nometa(nosymmetry(nometa(stru))). -/
example : Wraps (nometa 3 (some (nosymmetry 2 (some (nometa 1 (some (.other 7 exIface))))))) exIface true true ∧
    (nometa 3 (some (nosymmetry 2 (some (nometa 1 (some (.other 7 exIface))))))).siteMultiplicity 1 = 1 ∧
    (Adapter.other 7 exIface).siteMultiplicity 1 = 4 ∧
    InHeap (fun n => if n = 7 then .other 7 exIface else .noMeta 1 (.other 7 exIface))
      (nometa 1 (some (Adapter.other 7 exIface))) := by
  refine ⟨(wrapper_factory 3 (wrapper_factory 2 (wrapper_factory 1 (.other 7 exIface)).1).2).1, rfl, rfl, ?_, ?_⟩
  · exact if_neg (by decide)
  · exact if_pos rfl

end Verif.Wrappers
