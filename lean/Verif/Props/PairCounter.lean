import Verif.Props.Wrappers
import Mathlib.Algebra.Group.Even
import Mathlib.Algebra.BigOperators.Field
/-!
C43: the pair counter counts pairs; total occupancy.
-/
namespace Verif.Wrappers
open Verif.R3 Verif.BondGen Verif.Eval Classical

variable {B : Type}

theorem countLoop_eq (tr : List (Contrib B)) (v : ℝ) :
    countLoop tr v = v + traceSum (fun _ _ _ => (1 / 2 : ℝ)) tr := by
  unfold countLoop
  induction tr generalizing v with
  | nil => simp [traceSum]
  | cons t tr ih =>
    rw [List.foldl_cons, ih]
    simp only [traceSum, List.map_cons, List.sum_cons, zsmul_eq_mul]
    ring

/-- A symmetric double sum is twice the sum over unordered pairs plus the diagonal. -/
theorem sum_symmetric (g : Nat → Nat → ℕ) (hs : ∀ i j, g i j = g j i) (n : Nat) :
    ∑ i ∈ Finset.range n, ∑ j ∈ Finset.range n, g i j =
      2 * ∑ j ∈ Finset.range n, ∑ i ∈ Finset.range j, g i j + ∑ i ∈ Finset.range n, g i i := by
  induction n with
  | zero => simp
  | succ n ih =>
    rw [Finset.sum_range_succ, Finset.sum_range_succ, Finset.sum_range_succ,
      Finset.sum_congr rfl (fun i _ => Finset.sum_range_succ (fun j => g i j) n), Finset.sum_add_distrib, ih,
      Finset.sum_range_succ (fun i => g i i), Finset.sum_congr rfl (fun j (_ : j ∈ Finset.range n) => hs n j)]
    ring

theorem toInt_natCast (k : ℕ) : toInt (k : ℝ) = (k : Int) := by
  unfold toInt
  rw [if_pos (Nat.cast_nonneg k)]
  exact Int.floor_natCast k

/-- The raw value of the counter: half of the number of bonds over all ordered pairs of sites. -/
theorem countLoop_value (rule : Bool) (gen : Gen B) (c : Nat → Nat → List B) (hg : GenSpec gen c)
    (use : Nat → Nat → Bool) (hu : ∀ i j, use i j = use j i)
    (hl : ∀ i j, (c i j).length = (c j i).length) (cnt : Nat) :
    countLoop (basicTrace rule gen false use cnt 0 1) 0 =
      ((∑ i ∈ Finset.range cnt, ∑ j ∈ Finset.range cnt,
        if use i j = true then (c i j).length else 0 : ℕ) : ℝ) / 2 := by
  have hsum : ∀ l : List B, (l.map (fun _ => (1 / 2 : ℝ))).sum = (l.length : ℝ) / 2 := by
    intro l; rw [List.map_const', List.sum_replicate, nsmul_eq_mul]; ring
  rw [countLoop_eq, zero_add, basic_value _ rule gen c hg false use]
  · unfold pairSum
    simp only [hsum]
    push_cast
    rw [Finset.sum_div]
    refine Finset.sum_congr rfl fun i _ => ?_
    rw [Finset.sum_div]
    refine Finset.sum_congr rfl fun j _ => ?_
    split <;> simp
  · intro _ i j
    exact ⟨hu i j, by rw [hsum, hsum, hl]⟩

/-- **C43**, any structure: the counter returns half of the number of bonds counted from both ends,
exactly, when the bonds of a site with its own images come in opposite pairs. -/
theorem pairCount_general (rule : Bool) (gen : Gen B) (c : Nat → Nat → List B) (hg : GenSpec gen c)
    (use : Nat → Nat → Bool) (hu : ∀ i j, use i j = use j i)
    (hl : ∀ i j, (c i j).length = (c j i).length) (he : ∀ i, Even (c i i).length) (cnt : Nat) :
    2 * pairCount rule gen use cnt =
      ((∑ i ∈ Finset.range cnt, ∑ j ∈ Finset.range cnt,
        if use i j = true then (c i j).length else 0 : ℕ) : Int) := by
  unfold pairCount
  rw [countLoop_value rule gen c hg use hu hl cnt]
  have hs := sum_symmetric (fun i j => if use i j = true then (c i j).length else 0)
    (fun i j => by simp only [hu i j, hl i j]) cnt
  have hev : ∃ k, ∑ i ∈ Finset.range cnt, (if use i i = true then (c i i).length else 0) = 2 * k := by
    choose f hf using he
    refine ⟨∑ i ∈ Finset.range cnt, (if use i i = true then f i else 0), ?_⟩
    rw [Finset.mul_sum]
    refine Finset.sum_congr rfl fun i _ => ?_
    split
    · rw [hf i]; ring
    · rfl
  obtain ⟨k, hk⟩ := hev
  rw [hk] at hs
  rw [hs]
  generalize ∑ j ∈ Finset.range cnt, ∑ i ∈ Finset.range j, (if use i j = true then (c i j).length else 0) = m
  have : ((2 * m + 2 * k : ℕ) : ℝ) / 2 = ((m + k : ℕ) : ℝ) := by push_cast; ring
  rw [this, toInt_natCast]
  push_cast; ring

/-- The unordered pairs of sites to be counted: unmasked, at a distance in range that is more than the
rounding tolerance for coincident atoms. -/
noncomputable def countedPairs (pos : Nat → V3) (rmin rmax : ℝ) (use : Nat → Nat → Bool) (n : Nat) : Finset (Nat × Nat) :=
  (Finset.range n ×ˢ Finset.range n).filter fun p => p.1 < p.2 ∧ use p.1 p.2 = true ∧
    rmin ≤ V3.distance (pos p.1) (pos p.2) ∧ V3.distance (pos p.1) (pos p.2) ≤ rmax ∧
    sqrtEps < V3.distance (pos p.1) (pos p.2)

theorem card_pairs (p : Nat → Nat → Prop) [DecidablePred fun q : Nat × Nat => q.1 < q.2 ∧ p q.1 q.2]
    [∀ i j, Decidable (p i j)] (n : Nat) :
    ((Finset.range n ×ˢ Finset.range n).filter fun q => q.1 < q.2 ∧ p q.1 q.2).card =
      ∑ j ∈ Finset.range n, ∑ i ∈ Finset.range j, if p i j then 1 else 0 := by
  rw [Finset.card_filter, Finset.sum_product_right]
  refine Finset.sum_congr rfl fun j hj => ?_
  have hsub : Finset.range j ⊆ Finset.range n := by
    intro x hx
    rw [Finset.mem_range] at *
    omega
  rw [← Finset.sum_subset hsub]
  · refine Finset.sum_congr rfl fun i hi => ?_
    rw [Finset.mem_range] at hi
    simp only [hi, true_and]
  · intro x _ hx
    rw [Finset.mem_range] at hx
    rw [if_neg (fun h => hx h.1)]

/-- **C43**: for a finite structure the counter returns the number of unordered pairs of atoms that are
unmasked and in range. -/
theorem pairCount_spec (pos : Nat → V3) (rmin rmax : ℝ) (use : Nat → Nat → Bool)
    (hu : ∀ i j, use i j = use j i) (rule : Bool) (n : Nat) :
    pairCount rule (counterGen pos rmin rmax) use n = ((countedPairs pos rmin rmax use n).card : Int) := by
  have hg := base_loop_genSpec pos rmin rmax (fun _ _ => ⟨⟨0, 0, 0⟩, ⟨0, 0, 0⟩, 0⟩)
  have hlen : ∀ i j, (specBond ⟨pos i, rmin, rmax⟩ j (pos j)).length =
      if rmin ≤ V3.distance (pos j) (pos i) ∧ V3.distance (pos j) (pos i) ≤ rmax ∧
        sqrtEps < V3.distance (pos j) (pos i) then 1 else 0 := by
    intro i j
    unfold specBond GoodDist
    split <;> rfl
  have hc : ∀ a b : V3, V3.distance a b = V3.distance b a := by
    intro a b; unfold V3.distance V3.norm V3.sub V3.dot
    congr 1; ring
  have h0 : ∀ a : V3, V3.distance a a = 0 := by
    intro a; unfold V3.distance V3.norm V3.sub V3.dot; simp
  have hl : ∀ i j, (specBond ⟨pos i, rmin, rmax⟩ j (pos j)).length =
      (specBond ⟨pos j, rmin, rmax⟩ i (pos i)).length := by
    intro i j; rw [hlen, hlen, hc]
  have hself : ∀ i, (specBond ⟨pos i, rmin, rmax⟩ i (pos i)).length = 0 := by
    intro i
    rw [hlen, if_neg]
    rintro ⟨_, _, h⟩
    rw [h0] at h
    unfold sqrtEps at h
    norm_num at h
  have key := pairCount_general rule (counterGen pos rmin rmax) _ hg use hu hl
    (fun i => by rw [hself]; exact Even.zero) n
  have hs := sum_symmetric (fun i j => if use i j = true then
    (specBond ⟨pos i, rmin, rmax⟩ j (pos j)).length else 0) (fun i j => by simp only [hu i j, hl i j]) n
  simp only [hself, ite_self, Finset.sum_const_zero, add_zero] at hs
  rw [hs] at key
  have hcard : (countedPairs pos rmin rmax use n).card = ∑ j ∈ Finset.range n, ∑ i ∈ Finset.range j,
      (if use i j = true then (specBond ⟨pos i, rmin, rmax⟩ j (pos j)).length else 0) := by
    unfold countedPairs
    rw [card_pairs (fun i j => use i j = true ∧ rmin ≤ V3.distance (pos i) (pos j) ∧
      V3.distance (pos i) (pos j) ≤ rmax ∧ sqrtEps < V3.distance (pos i) (pos j))]
    refine Finset.sum_congr rfl fun j _ => Finset.sum_congr rfl fun i _ => ?_
    rw [hlen, hc (pos j) (pos i)]
    by_cases h : use i j = true
    · rw [if_pos h]
      exact if_congr ⟨fun h => h.2, fun h' => ⟨h, h'⟩⟩ rfl rfl
    · rw [if_neg h, if_neg (fun h' => h h'.1)]
  rw [hcard]
  push_cast at key ⊢
  linarith

/-- **C43**: n atoms at mutual distances above the tolerance and up to 1000 give n(n-1)/2 with a new
counter. -/
theorem pairCount_all (pos : Nat → V3) (n : Nat) (rule : Bool)
    (hd : ∀ i j, i < j → j < n → sqrtEps < V3.distance (pos i) (pos j) ∧ V3.distance (pos i) (pos j) ≤ 1000) :
    pairCount rule (counterGen pos 0 1000) (fun _ _ => true) n = ((n * (n - 1) / 2 : ℕ) : Int) := by
  rw [pairCount_spec _ _ _ _ (fun _ _ => rfl)]
  congr 1
  have : countedPairs pos 0 1000 (fun _ _ => true) n =
      (Finset.range n ×ˢ Finset.range n).filter fun q => q.1 < q.2 ∧ True := by
    unfold countedPairs
    apply Finset.filter_congr
    intro q hq
    rw [Finset.mem_product, Finset.mem_range, Finset.mem_range] at hq
    constructor
    · rintro ⟨h, _⟩; exact ⟨h, trivial⟩
    · rintro ⟨h, _⟩
      obtain ⟨h1, h2⟩ := hd q.1 q.2 h hq.2
      have hpos : (0 : ℝ) < sqrtEps := by unfold sqrtEps; norm_num
      exact ⟨h, rfl, by linarith, h2, h1⟩
  rw [this, card_pairs (fun _ _ => True)]
  simp only [if_true, Finset.sum_const, Finset.card_range, smul_eq_mul, mul_one]
  exact Finset.sum_range_id n

/-- **C43**: merging the parts of any number of parallel jobs gives the same count. -/
theorem pairCount_parallel (rule : Bool) (gen : Gen B) (use : Nat → Nat → Bool) (cnt ncpu : Nat)
    (hn : 1 ≤ ncpu) : pairCountParallel rule gen use cnt ncpu = pairCount rule gen use cnt := by
  unfold pairCountParallel pairCount
  have h := parallel_merge_value (fun _ _ _ => (1 / 2 : ℝ)) rule gen false use cnt ncpu hn
  have e : ∀ (l : List Nat) (acc : ℝ), l.foldl (fun (acc : ℝ) (k : Nat) =>
      acc + countLoop (basicTrace rule gen false use cnt (k : Int) (ncpu : Int)) 0) acc =
      acc + (l.map fun k : Nat => traceSum (fun _ _ _ => (1 / 2 : ℝ))
        (basicTrace rule gen false use cnt (k : Int) (ncpu : Int))).sum := by
    intro l
    induction l with
    | nil => intro acc; simp
    | cons k l ih =>
      intro acc
      rw [List.foldl_cons, ih, List.map_cons, List.sum_cons, countLoop_eq]
      ring
  rw [e, zero_add, ← finset_sum_range, h, countLoop_eq, zero_add]

/-! ### Total occupancy -/

theorem occLoop_eq (occ : Nat → ℝ) (mult : Nat → Int) (n i : Nat) (acc : ℝ) :
    occLoop occ mult i n acc = acc + ∑ k ∈ Finset.range n, occ (i + k) * mult (i + k) := by
  induction n generalizing i acc with
  | zero => simp [occLoop]
  | succ n ih =>
    unfold occLoop
    rw [ih, Finset.sum_range_succ']
    have : ∀ k, i + 1 + k = i + (k + 1) := fun k => by omega
    simp only [this, Nat.add_zero]
    ring

variable {P : Type}

/-- **C43**: the total occupancy is the sum of occupancy times multiplicity over the sites; a NoSymmetry
wrapper leaves the plain sum of the occupancies. -/
theorem totalOccupancy_spec {a : Adapter P} {i : Iface P} {m y : Bool} (h : Wraps a i m y) :
    a.totalOccupancy = ∑ k ∈ Finset.range i.count,
      i.occupancy k * (if y = true then 1 else (i.multiplicity k : ℝ)) := by
  unfold Adapter.totalOccupancy
  rw [occLoop_eq, zero_add, (wrapper_sites h).1]
  refine Finset.sum_congr rfl fun k _ => ?_
  have ho := congrArg Site.occupancy ((wrapper_sites h).2 k)
  simp only [Adapter.site, Iface.site] at ho
  rw [Nat.zero_add, ho]
  congr 1
  cases y with
  | true => rw [((wrapper_symmetry h 0 0).1 rfl).1 k]; simp
  | false => rw [((wrapper_symmetry h 0 0).2 rfl).1 k]; simp

/-- **C43**: the occupancy of a structure with symmetry equals that of the structure in which every site is
written out as many times as its multiplicity. -/
theorem totalOccupancy_expanded (occ : Nat → ℝ) (mult : Nat → ℕ) (n : Nat) :
    occLoop occ (fun k => (mult k : Int)) 0 n 0 =
      (((List.range n).flatMap fun k => List.replicate (mult k) (occ k)).sum : ℝ) := by
  rw [occLoop_eq, zero_add]
  induction n with
  | zero => simp
  | succ n ih =>
    rw [Finset.sum_range_succ, ih, List.range_succ, List.flatMap_append, List.sum_append]
    simp only [List.flatMap_cons, List.flatMap_nil, List.append_nil, List.sum_replicate, nsmul_eq_mul, Nat.zero_add]
    push_cast
    ring

/-- **C43**: the number density of a periodic structure times the volume of its cell is the occupancy-weighted
number of atoms in the cell. -/
theorem density_spec (occ : Nat → ℝ) (mult : Nat → ℕ) (n : Nat) (volume : ℝ) (hv : 0 < volume) :
    periodicDensity (occLoop occ (fun k => (mult k : Int)) 0 n 0) volume * volume =
      ∑ k ∈ Finset.range n, occ k * (mult k : ℝ) := by
  unfold periodicDensity
  rw [occLoop_eq, zero_add, div_mul_cancel₀ _ hv.ne']
  exact Finset.sum_congr rfl fun k _ => by rw [Nat.zero_add]; push_cast; rfl

/-- **C43**: the number density of a periodic structure is that of any supercell of it: `q` copies of every
site in a cell of `q` times the volume. -/
theorem density_supercell (occ : Nat → ℝ) (mult : Nat → ℕ) (n q : Nat) (hq : 0 < q) (volume : ℝ) :
    periodicDensity (occLoop (fun k => occ (k % n)) (fun k => (mult (k % n) : Int)) 0 (q * n) 0) (q * volume) =
      periodicDensity (occLoop occ (fun k => (mult k : Int)) 0 n 0) volume := by
  unfold periodicDensity
  have e : ∀ q : Nat, ∑ k ∈ Finset.range (q * n), occ (k % n) * ((mult (k % n) : Int) : ℝ) =
      q * ∑ k ∈ Finset.range n, occ k * ((mult k : Int) : ℝ) := by
    intro q
    induction q with
    | zero => simp
    | succ q ih =>
      rw [Nat.succ_mul, Finset.sum_range_add, ih]
      have : ∑ x ∈ Finset.range n, occ ((q * n + x) % n) * ((mult ((q * n + x) % n) : Int) : ℝ) =
          ∑ x ∈ Finset.range n, occ x * ((mult x : Int) : ℝ) := by
        refine Finset.sum_congr rfl fun x hx => ?_
        rw [Finset.mem_range] at hx
        have : (q * n + x) % n = x := by
          rw [Nat.add_comm, Nat.add_mul_mod_self_right]; exact Nat.mod_eq_of_lt hx
        rw [this]
      rw [this]; push_cast; ring
  rw [occLoop_eq, occLoop_eq, zero_add, zero_add]
  simp only [Nat.zero_add]
  rw [e q]
  have hq' : (q : ℝ) ≠ 0 := by exact_mod_cast hq.ne'
  exact mul_div_mul_left _ _ hq'

/-- Four atoms on a line, two apart: six pairs; the ones in [0, 3] are three. -/
example : pairCount true (counterGen (fun i => ⟨2 * (i : ℝ), 0, 0⟩) 0 1000) (fun _ _ => true) 4 = 6 := by
  rw [pairCount_all]
  · rfl
  · intro i j hij hj
    have hd : V3.distance ⟨2 * (i : ℝ), 0, 0⟩ ⟨2 * (j : ℝ), 0, 0⟩ = 2 * ((j : ℝ) - i) := by
      unfold V3.distance V3.norm V3.sub V3.dot
      have h : (0 : ℝ) ≤ 2 * ((j : ℝ) - i) := by
        have : (i : ℝ) < j := by exact_mod_cast hij
        linarith
      simp only [sub_zero, mul_zero, add_zero]
      rw [show (2 * (i : ℝ) - 2 * j) * (2 * (i : ℝ) - 2 * j) = (2 * ((j : ℝ) - i)) ^ 2 by ring, Real.sqrt_sq h]
    rw [hd]
    have h1 : (i : ℝ) + 1 ≤ j := by exact_mod_cast hij
    have h2 : (j : ℝ) < 4 := by exact_mod_cast hj
    have h3 : (0 : ℝ) ≤ i := Nat.cast_nonneg i
    unfold sqrtEps
    constructor
    · norm_num; linarith
    · linarith

end Verif.Wrappers
