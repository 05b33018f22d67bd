import Verif.Lemmas.BondGen
import Verif.Lemmas.Evaluator
import Verif.Model.Evaluator
/-! C14: the bond generators visit exactly the bonds in range (loops of `rewind`, `next`,
`finished`). -/
namespace Verif.BondGen
open Verif.R3 Classical

/-- C14. The loop over the base generator yields, in the order of the selected sites, the bond to
each selected site in range, with its true position, direction and distance, and nothing else;
bond data left over from earlier use (`old`) do not matter. -/
theorem base_loop_exact (c : Cfg) (pos : Nat → V3) (sel : List Nat) (old : Cur) :
    baseLoop c pos sel old = sel.flatMap fun i => specBond c i (pos i) := by
  unfold baseLoop
  cases sel with
  | nil => simp
  | cons i is =>
    simp only [List.isEmpty_cons, Bool.false_eq_true, if_false]
    rw [Machine.collect_states]
    exact base_states c pos (i :: is) (by simp) old

/-- C14, by sites: the visited sites are the selected ones in range, in order, each as often as it
is selected. -/
theorem base_loop_sites (c : Cfg) (pos : Nat → V3) (sel : List Nat) (old : Cur) :
    (baseLoop c pos sel old).map Bond.site1 = sel.filter fun i =>
      decide (c.rmin ≤ V3.distance (pos i) c.r0 ∧ V3.distance (pos i) c.r0 ≤ c.rmax ∧
        sqrtEps < V3.distance (pos i) c.r0) := by
  rw [base_loop_exact]
  induction sel with
  | nil => rfl
  | cons i is ih =>
    rw [List.flatMap_cons, List.map_append, ih, List.filter_cons]
    unfold specBond GoodDist
    split <;> simp_all

/-- C14, by bonds: every visited bond carries the geometry of its site. -/
theorem base_loop_data (c : Cfg) (pos : Nat → V3) (sel : List Nat) (old : Cur) (b : Bond)
    (hb : b ∈ baseLoop c pos sel old) :
    b.site1 ∈ sel ∧ b.r1 = pos b.site1 ∧ b.r01 = V3.sub (pos b.site1) c.r0 ∧
      b.distance = V3.distance (pos b.site1) c.r0 ∧ c.rmin ≤ b.distance ∧ b.distance ≤ c.rmax ∧
      sqrtEps < b.distance := by
  rw [base_loop_exact, List.mem_flatMap] at hb
  obtain ⟨i, hi, hb⟩ := hb
  unfold specBond at hb
  split at hb
  · rename_i hg
    rw [List.mem_singleton] at hb
    subst hb
    exact ⟨hi, rfl, rfl, rfl, hg⟩
  · simp at hb

/-- The base generator meets the contract that the evaluator theorems assume of a generator. -/
theorem base_loop_genSpec (pos : Nat → V3) (rmin rmax : ℝ) (old : Nat → List Nat → Cur) :
    Verif.Eval.GenSpec
      (fun i sel => (baseLoop ⟨pos i, rmin, rmax⟩ pos sel (old i sel)).map fun b => (b.site1, b))
      (fun i j => specBond ⟨pos i, rmin, rmax⟩ j (pos j)) := by
  intro i sel
  beta_reduce
  rw [base_loop_exact, List.map_flatMap]
  apply List.Perm.of_eq
  congr 1
  funext j
  unfold specBond
  split <;> simp

/-- A selection of an anchor and site range that finds a bond: two atoms two apart, range [1, 3];
the anchor itself is skipped. -/
example (old : Cur) : (baseLoop ⟨⟨0, 0, 0⟩, 1, 3⟩ (fun i => ⟨2 * (i : ℝ), 0, 0⟩) [0, 1, 2] old).map
    Bond.site1 = [1] := by
  have hd : ∀ i : Nat, V3.distance ⟨2 * (i : ℝ), 0, 0⟩ ⟨0, 0, 0⟩ = 2 * i := by
    intro i
    unfold V3.distance V3.norm V3.sub V3.dot
    simp
  rw [base_loop_sites]
  simp only [hd, sqrtEps]
  norm_num [List.filter_cons]

/-- The raw content of the loop over the periodic generator: for each lattice point of the sphere
(the origin when there is none) the selected sites in range. -/
theorem per_loop_exact (c : Cfg) (pos : Nat → V3) (pts : List V3) (sel : List Nat) (old : Cur) :
    perLoop c pos pts sel old = (pts.headD V3.zero :: pts.tail).flatMap fun p =>
      sel.flatMap fun i => specBond c i (V3.add p (pos i)) := by
  unfold perLoop
  cases hs : sel with
  | nil => simp
  | cons i is =>
    simp only [List.isEmpty_cons, Bool.false_eq_true, if_false]
    rw [Machine.collect_states]
    cases pts with
    | nil =>
      rw [per_states_nil c pos (i :: is) (i :: is) (by simp)]
      simp
    | cons p ps =>
      rw [per_states c pos (i :: is) (by simp) ps (i :: is) (by simp)]
      simp

/-- The raw content of the loop over the crystal generator: for each selected site, each of its
symmetry positions and each lattice point (the origin when there is none) the bond in range. -/
theorem cry_loop_exact (c : Cfg) (syms : Nat → List V3) (pts : List V3) (sel : List Nat)
    (hsym : ∀ i ∈ sel, syms i ≠ []) (old : Cur) :
    cryLoop c syms pts sel old = sel.flatMap fun i => (syms i).flatMap fun q =>
      (pts.headD V3.zero :: pts.tail).flatMap fun p => specBond c i (V3.add p q) := by
  unfold cryLoop
  cases sel with
  | nil => simp
  | cons i is =>
    simp only
    rw [Machine.collect_states]
    obtain ⟨q, qs, hq⟩ := List.exists_cons_of_ne_nil (hsym i (by simp))
    rw [hq]
    have := cry_states c syms pts is (fun j hj => hsym j (by simp [hj])) i q qs
      (pts.headD V3.zero) pts.tail pts rfl old
    rw [cryRewindSphere, this]
    simp only [List.flatMap_cons, hq, List.append_assoc]

end Verif.BondGen
