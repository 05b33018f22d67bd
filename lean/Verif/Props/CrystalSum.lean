import Verif.Props.PDFPeriodic
import Verif.Props.Crystal
import Mathlib.Algebra.BigOperators.Finprod
/-
Sums over the points of a crystal: the sum seen from one position of an orbit times the multiplicity is the sum over
all positions of the orbit.  Used for C61.
-/
set_option linter.unusedSectionVars false
namespace Verif.PDFCache
open Verif.PDFGrid Verif.Eval Verif.R3 Verif.BondGen Verif.Lattice Verif.Points Verif.Periodic

/-- The point `q` moved by the lattice translation `t`. -/
noncomputable def moved (L : Lat) (q : V3) (t : ℤ × ℤ × ℤ) : V3 := V3.add q (shift L t)

/-- All lattice translations of the positions in `l`. -/
def Orbit (L : Lat) (l : List V3) : Set V3 := {x | ∃ q ∈ l, ∃ t, x = moved L q t}

/-- No two positions of `l` differ by a lattice translation. -/
def Apart (L : Lat) (l : List V3) : Prop := l.Pairwise fun p q => ∀ t, p ≠ moved L q t

/-- The sum of `F` over all lattice translations of the positions in `l`. -/
noncomputable def orbitSum (L : Lat) (l : List V3) (F : V3 → ℝ) : ℝ := (l.map fun q => ∑ᶠ t, F (moved L q t)).sum

theorem shift_add (L : Lat) (s t : ℤ × ℤ × ℤ) : shift L (s + t) = V3.add (shift L s) (shift L t) := by
  unfold shift Lat.cartesian
  rw [← M3.vecMul_add]
  congr 1
  ext <;> simp [tripVec, V3.add]

theorem shift_zero (L : Lat) : shift L 0 = V3.zero := by
  unfold shift
  ext <;> simp [Lat.cartesian, tripVec, V3.zero, M3.vecMul, V3.dot]

theorem moved_moved (L : Lat) (q : V3) (s t : ℤ × ℤ × ℤ) : moved L (moved L q s) t = moved L q (s + t) := by
  unfold moved
  rw [shift_add]
  ext <;> simp [V3.add] <;> ring

theorem moved_zero (L : Lat) (q : V3) : moved L q 0 = q := by
  unfold moved
  rw [shift_zero]
  ext <;> simp [V3.add, V3.zero]

theorem tripVec_inj {s t : ℤ × ℤ × ℤ} (h : tripVec s = tripVec t) : s = t := by
  have h1 := congrArg V3.x h
  have h2 := congrArg V3.y h
  have h3 := congrArg V3.z h
  simp only [tripVec, Int.cast_inj] at h1 h2 h3
  exact Prod.ext h1 (Prod.ext h2 h3)

theorem moved_inj (L : Lat) (hL : Reachable L) (q : V3) : Function.Injective (moved L q) := by
  intro s t h
  unfold moved at h
  have e : shift L s = shift L t := by
    have h1 := congrArg V3.x h
    have h2 := congrArg V3.y h
    have h3 := congrArg V3.z h
    simp only [V3.add] at h1 h2 h3
    ext <;> linarith
  unfold shift at e
  have := congrArg L.fractional e
  rw [(cartesian_fractional L hL _).2, (cartesian_fractional L hL _).2] at this
  exact tripVec_inj this

/-- A sum over positions and translations is a sum over the points of the orbit. -/
theorem orbitSum_eq (L : Lat) (hL : Reachable L) (l : List V3) (hl : Apart L l) (F : V3 → ℝ)
    (hf : (Orbit L l ∩ Function.support F).Finite) : orbitSum L l F = ∑ᶠ x ∈ Orbit L l, F x := by
  induction l with
  | nil =>
    have : Orbit L [] = ∅ := by ext x; simp [Orbit]
    rw [this, finsum_mem_empty]
    rfl
  | cons q l ih =>
    unfold Apart at hl
    rw [List.pairwise_cons] at hl
    have hu : Orbit L (q :: l) = Set.range (moved L q) ∪ Orbit L l := by
      ext x
      simp only [Orbit, List.mem_cons, Set.mem_ofPred_eq, Set.mem_union, Set.mem_range]
      constructor
      · rintro ⟨p, rfl | hp, t, rfl⟩
        · exact Or.inl ⟨t, rfl⟩
        · exact Or.inr ⟨p, hp, t, rfl⟩
      · rintro (⟨t, rfl⟩ | ⟨p, hp, t, rfl⟩)
        · exact ⟨q, Or.inl rfl, t, rfl⟩
        · exact ⟨p, Or.inr hp, t, rfl⟩
    have hd : Disjoint (Set.range (moved L q)) (Orbit L l) := by
      rw [Set.disjoint_left]
      rintro x ⟨t, rfl⟩ ⟨p, hp, s, h⟩
      apply hl.1 p hp (s + -t)
      rw [← moved_moved, ← h, moved_moved, add_neg_cancel, moved_zero]
    have f1 : (Set.range (moved L q) ∩ Function.support F).Finite :=
      hf.subset (Set.inter_subset_inter_left _ (by rw [hu]; exact Set.subset_union_left))
    have f2 : (Orbit L l ∩ Function.support F).Finite :=
      hf.subset (Set.inter_subset_inter_left _ (by rw [hu]; exact Set.subset_union_right))
    rw [hu, finsum_mem_union' hd f1 f2, finsum_mem_range (moved_inj L hL q), ← ih hl.2 f2]
    unfold orbitSum
    rw [List.map_cons, List.sum_cons]

/-- A function that is carried along by a bijection of the points has the same sum. -/
theorem orbitSum_sym (L : Lat) (hL : Reachable L) (l : List V3) (hl : Apart L l) (F G : V3 → ℝ)
    (hF : (Orbit L l ∩ Function.support F).Finite) (hG : (Orbit L l ∩ Function.support G).Finite)
    (g : V3 → V3) (hg : Set.BijOn g (Orbit L l) (Orbit L l)) (h : ∀ x ∈ Orbit L l, F x = G (g x)) :
    orbitSum L l F = orbitSum L l G := by
  rw [orbitSum_eq L hL l hl F hF, orbitSum_eq L hL l hl G hG]
  exact finsum_mem_eq_of_bijOn g hg h

theorem sum_map_comm {α β : Type} (as : List α) (bs : List β) (f : α → β → ℝ) :
    (as.map fun a => (bs.map fun b => f a b).sum).sum = (bs.map fun b => (as.map fun a => f a b).sum).sum := by
  induction as with
  | nil => simp
  | cons a as ih => simp only [List.map_cons, List.sum_cons, ih, List.sum_map_add]

theorem mem_orbit (L : Lat) (l : List V3) (q : V3) (h : q ∈ l) (t : ℤ × ℤ × ℤ) : moved L q t ∈ Orbit L l := ⟨q, h, t, rfl⟩

theorem self_mem_orbit (L : Lat) (l : List V3) (q : V3) (h : q ∈ l) : q ∈ Orbit L l := by
  have := mem_orbit L l q h 0
  rwa [moved_zero] at this

/-- The total over ordered pairs of two orbits does not depend on which orbit comes first. -/
theorem orbit_swap (L : Lat) (a b : List V3) (Φ Ψ : V3 → V3 → ℝ)
    (hs : ∀ p ∈ Orbit L a, ∀ x ∈ Orbit L b, Φ p x = Ψ x p)
    (ht : ∀ p ∈ Orbit L b, ∀ x ∈ Orbit L a, ∀ t, Ψ (moved L p t) (moved L x t) = Ψ p x) :
    (a.map fun p => orbitSum L b (Φ p)).sum = (b.map fun q => orbitSum L a (Ψ q)).sum := by
  unfold orbitSum
  rw [sum_map_comm]
  congr 1
  refine List.map_congr_left fun q hq => ?_
  congr 1
  refine List.map_congr_left fun p hp => ?_
  rw [← finsum_comp_equiv (Equiv.neg (ℤ × ℤ × ℤ)) (f := fun t => Ψ q (moved L p t))]
  congr 1
  funext t
  rw [hs p (self_mem_orbit L a p hp) _ (mem_orbit L b q hq t), Equiv.neg_apply,
    ← ht (moved L q t) (mem_orbit L b q hq t) p (self_mem_orbit L a p hp) (-t), moved_moved, add_neg_cancel, moved_zero]

/-- A sum of equal terms. -/
theorem sum_const_of {α : Type} (l : List α) (f : α → ℝ) (v : ℝ) (h : ∀ a ∈ l, f a = v) :
    (l.map f).sum = (l.length : ℝ) * v := by
  induction l with
  | nil => simp
  | cons a l ih =>
    rw [List.map_cons, List.sum_cons, ih (fun b hb => h b (List.mem_cons_of_mem a hb)), h a (List.mem_cons_self ..)]
    push_cast [List.length_cons]
    ring

/-- What makes the `n` orbits `O` with the widths `W i j p x` (of a pair with its ends at `p` in orbit `i` and at `x` in
orbit `j`) a symmetric arrangement: the positions of an orbit are distinct, any of them is taken to any other by a map
that keeps distances, all orbits and the widths, and the widths do not depend on the order of the ends or on common
translations. -/
structure CrystalSym (L : Lat) (n : Nat) (O : Nat → List V3) (W : Nat → Nat → V3 → V3 → ℝ) : Prop where
  ne : ∀ i < n, O i ≠ []
  apart : ∀ i < n, Apart L (O i)
  trans : ∀ i < n, ∀ p ∈ O i, ∃ g : V3 → V3, g ((O i).headD V3.zero) = p ∧
    (∀ x y, V3.distance (g x) (g y) = V3.distance x y) ∧
    ∀ j < n, Set.BijOn g (Orbit L (O j)) (Orbit L (O j)) ∧
      ∀ x ∈ Orbit L (O j), W i j p (g x) = W i j ((O i).headD V3.zero) x
  even : ∀ i < n, ∀ j < n, ∀ p ∈ Orbit L (O i), ∀ x ∈ Orbit L (O j), W i j p x = W j i x p
  shift : ∀ i < n, ∀ j < n, ∀ p ∈ Orbit L (O i), ∀ x ∈ Orbit L (O j), ∀ t,
    W i j (moved L p t) (moved L x t) = W i j p x

theorem headD_mem {α : Type} (l : List α) (d : α) (h : l ≠ []) : l.headD d ∈ l := by
  cases l with
  | nil => exact absurd rfl h
  | cons a l => exact List.mem_cons_self ..

theorem distance_moved (L : Lat) (p x : V3) (t : ℤ × ℤ × ℤ) :
    V3.distance (moved L x t) (moved L p t) = V3.distance x p := by
  unfold V3.distance moved
  congr 1
  ext <;> simp [V3.sub, V3.add]

/-- The sum seen from the first position of an orbit, times the multiplicity, is the sum over all positions. -/
theorem orbit_mult (L : Lat) (hL : Reachable L) (n : Nat) (O : Nat → List V3) (W : Nat → Nat → V3 → V3 → ℝ)
    (hS : CrystalSym L n O W) (i j : Nat) (hi : i < n) (hj : j < n) (ψ : ℝ → ℝ → ℝ)
    (hfin : ∀ p ∈ O i, (Orbit L (O j) ∩ Function.support fun x => ψ (V3.distance x p) (W i j p x)).Finite) :
    ((O i).map fun p => orbitSum L (O j) fun x => ψ (V3.distance x p) (W i j p x)).sum =
      ((O i).length : ℝ) * orbitSum L (O j) fun x =>
        ψ (V3.distance x ((O i).headD V3.zero)) (W i j ((O i).headD V3.zero) x) := by
  apply sum_const_of
  intro p hp
  obtain ⟨g, g1, g2, g3⟩ := hS.trans i hi p hp
  obtain ⟨g4, g5⟩ := g3 j hj
  symm
  refine orbitSum_sym L hL (O j) (hS.apart j hj) _ _ (hfin _ (headD_mem _ _ (hS.ne i hi))) (hfin p hp) g g4 ?_
  intro x hx
  rw [g5 x hx]
  congr 1
  rw [← g1, g2]

/-- Both orbits see the same total. -/
theorem orbit_balance (L : Lat) (hL : Reachable L) (n : Nat) (O : Nat → List V3) (W : Nat → Nat → V3 → V3 → ℝ)
    (hS : CrystalSym L n O W) (i j : Nat) (hi : i < n) (hj : j < n) (ψ : ℝ → ℝ → ℝ)
    (hij : ∀ p ∈ O i, (Orbit L (O j) ∩ Function.support fun x => ψ (V3.distance x p) (W i j p x)).Finite)
    (hji : ∀ p ∈ O j, (Orbit L (O i) ∩ Function.support fun x => ψ (V3.distance x p) (W j i p x)).Finite) :
    ((O i).length : ℝ) * orbitSum L (O j) (fun x =>
        ψ (V3.distance x ((O i).headD V3.zero)) (W i j ((O i).headD V3.zero) x)) =
      ((O j).length : ℝ) * orbitSum L (O i) fun x =>
        ψ (V3.distance x ((O j).headD V3.zero)) (W j i ((O j).headD V3.zero) x) := by
  rw [← orbit_mult L hL n O W hS i j hi hj ψ hij, ← orbit_mult L hL n O W hS j i hj hi ψ hji]
  refine orbit_swap L (O i) (O j) (fun p x => ψ (V3.distance x p) (W i j p x))
    (fun p x => ψ (V3.distance x p) (W j i p x)) ?_ ?_
  · intro p hp x hx
    rw [hS.even i hi j hj p hp x hx, distance_comm x p]
  · intro p hp x hx t
    rw [hS.shift j hj i hi p hp x hx t, distance_moved]

end Verif.PDFCache
