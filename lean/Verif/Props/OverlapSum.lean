import Verif.Model.OverlapSum
import Verif.Props.Geometry
import Verif.Props.Overlap
import Verif.Props.Neighborhoods
import Mathlib.Algebra.BigOperators.Finprod
import Mathlib.Algebra.BigOperators.Field
/-! C83: overlaps of finite structures, periodic structures and crystals. -/
set_option linter.unusedSectionVars false
namespace Verif.Overlap
open Verif.AssocMap Verif.BondGen Verif.Eval Verif.R3 Verif.Geo
open scoped BigOperators

/-! ### Specification -/

/-- The overlap of an atom of site `i` with an atom of site `j` displaced by `v`: none for atoms outside of the range. -/
noncomputable def olp (s : Stru ℝ) (rmin rmax : ℝ) (i j : ℕ) (v : V3) : ℝ :=
  if InRange rmin rmax (V3.norm v) then max 0 (s.radius i + s.radius j - V3.norm v) else 0

/-- The square overlaps of an atom of site `i` with all atoms of site `j`. -/
noncomputable def squareOverlap (s : Stru ℝ) (g : Geometry) (rmin rmax : ℝ) (i j : ℕ) : ℝ :=
  g.sum i j fun v => olp s rmin rmax i j v ^ 2

open Classical in
/-- The number of atoms of site `j` that an atom of site `i` overlaps with. -/
noncomputable def contacts (s : Stru ℝ) (g : Geometry) (rmin rmax : ℝ) (i j : ℕ) : ℝ :=
  g.sum i j fun v => if 0 < olp s rmin rmax i j v then 1 else 0

/-- An atom of site `i` overlaps with some atom of site `j`. -/
def Touch (s : Stru ℝ) (g : Geometry) (rmin rmax : ℝ) (i j : ℕ) : Prop := ∃ v, g.IsVec i j v ∧ 0 < olp s rmin rmax i j v

/-- The total for given radii, multiplicities and occupancies as in `s`: every pair of overlapping atoms of the cell once. -/
noncomputable def total (s : Stru ℝ) (g : Geometry) (mask : ℕ → ℕ → Bool) (rmin rmax : ℝ) : ℝ :=
  (∑ i ∈ Finset.range s.cnt, ∑ j ∈ Finset.range s.cnt, if mask i j = true then
    (s.mult i : ℝ) * s.occ i * s.occ j * squareOverlap s g rmin rmax i j else 0) / 2

/-! ### Sums over the bonds -/

theorem sum_smul (g : Geometry) (i j : ℕ) (a : ℝ) (F : V3 → ℝ) : g.sum i j (fun v => a * F v) = a * g.sum i j F := by
  have h : ∀ f : ℤ × ℤ × ℤ → ℝ, (∑ᶠ s, a * f s) = a * ∑ᶠ s, f s := fun f => (smul_finsum a f).symm
  cases g with
  | cluster n pos => rfl
  | periodic n L xyz => exact h _
  | crystal c =>
    simp only [Geometry.sum]
    rw [← List.sum_map_mul_left]
    congr 1
    refine List.map_congr_left fun q _ => h _

theorem cut_zero (g : Geometry) (lo hi : ℝ) (i j : ℕ) (F : V3 → ℝ) (h : ∀ v, F v = 0) : g.sum i j (cut lo hi F) = 0 := by
  have e : cut lo hi F = fun v => 0 * (0 : ℝ) := by
    funext v
    unfold cut
    rw [h v, ite_self, zero_mul]
  rw [e, sum_smul, zero_mul]

theorem all_sum {B : Type} (c : ℕ → ℕ → List B) (use : ℕ → ℕ → Bool) (n : ℕ) (h : Contrib B → ℝ) :
    ((specContribs c true use n).map h).sum =
      ∑ i ∈ Finset.range n, ∑ j ∈ Finset.range n, if use i j = true then ((c i j).map fun b => h ⟨i, j, 1, b⟩).sum else 0 := by
  have hf : ∀ {α : Type} (l : List α) (g : α → List (Contrib B)), ((l.flatMap g).map h).sum =
      (l.map fun a => ((g a).map h).sum).sum := by
    intro α l g
    induction l with
    | nil => rfl
    | cons a l ih => rw [List.flatMap_cons, List.map_append, List.sum_append, ih, List.map_cons, List.sum_cons]
  unfold specContribs
  rw [hf, ← finset_sum_range]
  refine Finset.sum_congr rfl fun i _ => ?_
  rw [hf, ← finset_sum_range]
  refine Finset.sum_congr rfl fun j _ => ?_
  by_cases hu : use i j = true
  · have hp : (true = true ∨ j ≤ i) ∧ use i j = true := ⟨Or.inl rfl, hu⟩
    rw [if_pos hp, if_pos hu, List.map_map]
    simp only [true_or, if_true]
    rfl
  · have hp : ¬ ((true = true ∨ j ≤ i) ∧ use i j = true) := fun x => hu x.2
    rw [if_neg hp, if_neg hu]
    rfl

/-- The view of a bond given by its vector. -/
noncomputable def vecBnd (v : V3) : Bnd ℝ := ⟨V3.norm v, v.x, v.y, v.z⟩

/-- The sum over the stored bonds. -/
theorem trace_sum (g : Geometry) (lo hi : ℝ) (gen : Gen Bond) (bonds : ℕ → ℕ → List Bond) (hd : Delivers g lo hi gen bonds)
    (mask : ℕ → ℕ → Bool) (h : ℕ → ℕ → Bnd ℝ → ℝ) :
    ((basicTrace true (mapGen ovBond gen) true mask g.cnt 0 1).map fun c => h c.i0 c.i1 c.bond).sum =
      ∑ i ∈ Finset.range g.cnt, ∑ j ∈ Finset.range g.cnt, if mask i j = true then
        g.sum i j (cut lo hi fun v => h i j (vecBnd v)) else 0 := by
  rw [((trace_perm g lo hi gen bonds hd ovBond true true mask 0).map _).sum_eq, all_sum]
  refine Finset.sum_congr rfl fun i hi' => Finset.sum_congr rfl fun j hj => ?_
  rw [Finset.mem_range] at hi' hj
  congr 1
  rw [← hd.sum i hi' j hj, List.map_map]
  congr 1
  refine List.map_congr_left fun b hb => ?_
  show h i j (ovBond b) = h i j (vecBnd b.r01)
  unfold ovBond vecBnd
  rw [hd.dist i j b hb]

/-- The stored bonds. -/
theorem trace_mem (g : Geometry) (lo hi : ℝ) (gen : Gen Bond) (bonds : ℕ → ℕ → List Bond) (hd : Delivers g lo hi gen bonds)
    (mask : ℕ → ℕ → Bool) (P : ℕ → ℕ → Bnd ℝ → Prop) :
    (∃ c ∈ basicTrace true (mapGen ovBond gen) true mask g.cnt 0 1, P c.i0 c.i1 c.bond) ↔
      ∃ i < g.cnt, ∃ j < g.cnt, mask i j = true ∧ ∃ v, g.IsVec i j v ∧ InRange lo hi (V3.norm v) ∧ P i j (vecBnd v) := by
  have hp := trace_perm g lo hi gen bonds hd ovBond true true mask 0
  constructor
  · rintro ⟨c, hc, hP⟩
    have hc := hp.mem_iff.1 hc
    unfold specContribs at hc
    obtain ⟨i, hi', hc⟩ := List.mem_flatMap.1 hc
    obtain ⟨j, hj, hc⟩ := List.mem_flatMap.1 hc
    rw [List.mem_range] at hi' hj
    split at hc
    · rename_i hm
      obtain ⟨b, hb, rfl⟩ := List.mem_map.1 hc
      obtain ⟨b', hb', rfl⟩ := List.mem_map.1 hb
      obtain ⟨h1, h2⟩ := (hd.mem i hi' j hj b'.r01).1 ⟨b', hb', rfl⟩
      refine ⟨i, hi', j, hj, hm.2, b'.r01, h1, h2, ?_⟩
      have e : vecBnd b'.r01 = ovBond b' := by unfold ovBond vecBnd; rw [hd.dist i j b' hb']
      rw [e]
      exact hP
    · simp at hc
  · rintro ⟨i, hi', j, hj, hm, v, h1, h2, hP⟩
    obtain ⟨b, hb, rfl⟩ := (hd.mem i hi' j hj v).2 ⟨h1, h2⟩
    refine ⟨⟨i, j, 1, ovBond b⟩, hp.mem_iff.2 ?_, ?_⟩
    · unfold specContribs
      refine List.mem_flatMap.2 ⟨i, List.mem_range.2 hi', List.mem_flatMap.2 ⟨j, List.mem_range.2 hj, ?_⟩⟩
      have hp : (true = true ∨ j ≤ i) ∧ mask i j = true := ⟨Or.inl rfl, hm⟩
      rw [if_pos hp]
      exact List.mem_map.2 ⟨ovBond b, List.mem_map.2 ⟨b, hb, rfl⟩, by simp⟩
    · have e : vecBnd b.r01 = ovBond b := by unfold ovBond vecBnd; rw [hd.dist i j b hb]
      rw [e] at hP
      exact hP

/-- The cut at the maximum separation leaves out no overlap. -/
theorem cut_olp (s : Stru ℝ) (rmin rmax : ℝ) (f : ℝ → ℝ) (hf : f 0 = 0) (i j : ℕ) (hi : i < s.cnt) (hj : j < s.cnt) (v : V3) :
    cut rmin (rmaxUsed s rmax) (fun v => f (max 0 (s.radius i + s.radius j - V3.norm v))) v = f (olp s rmin rmax i j v) := by
  have hM := (maxSeparation_spec s).1 i hi j hj
  unfold cut olp rmaxUsed
  by_cases h : InRange rmin rmax (V3.norm v)
  · rw [if_pos h]
    by_cases h2 : InRange rmin (min rmax (maxSeparation s)) (V3.norm v)
    · rw [if_pos h2]
    · rw [if_neg h2]
      have : ¬ V3.norm v ≤ maxSeparation s := fun hh => h2 ⟨h.1, le_min h.2.1 hh, h.2.2⟩
      rw [max_eq_left (by linarith), hf]
  · have h2 : ¬ InRange rmin (min rmax (maxSeparation s)) (V3.norm v) := fun hh => h ⟨hh.1, hh.2.1.trans (min_le_left _ _), hh.2.2⟩
    rw [if_neg h, if_neg h2, hf]

theorem range_olp (s : Stru ℝ) (rmin rmax : ℝ) (i j : ℕ) (hi : i < s.cnt) (hj : j < s.cnt) (v : V3) :
    (InRange rmin (rmaxUsed s rmax) (V3.norm v) ∧ 0 < max 0 (s.radius i + s.radius j - V3.norm v)) ↔ 0 < olp s rmin rmax i j v := by
  have hM := (maxSeparation_spec s).1 i hi j hj
  unfold olp rmaxUsed
  constructor
  · rintro ⟨h, h0⟩
    have h2 : InRange rmin rmax (V3.norm v) := ⟨h.1, h.2.1.trans (min_le_left _ _), h.2.2⟩
    rw [if_pos h2]; exact h0
  · intro h0
    by_cases h : InRange rmin rmax (V3.norm v)
    · rw [if_pos h] at h0
      refine ⟨⟨h.1, le_min h.2.1 ?_, h.2.2⟩, h0⟩
      by_contra hn
      rw [max_eq_left (by linarith)] at h0
      exact lt_irrefl _ h0
    · rw [if_neg h] at h0
      exact absurd h0 (lt_irrefl _)

/-! ### Values -/

/-- C83. `siteSquareOverlaps()`: for each site half the sum, over all other atoms within the limits, of the squared overlap
times the occupancy. -/
theorem site_square_overlaps (s : Stru ℝ) (g : Geometry) (hok : g.Ok) (hcnt : s.cnt = g.cnt) (mask : ℕ → ℕ → Bool) (rmin rmax : ℝ)
    (gen : ℝ → ℝ → Gen Bond) (hgen : g.IsGen rmin (rmaxUsed s rmax) (gen rmin (rmaxUsed s rmax))) (k : ℕ) (hk : k < s.cnt) :
    (siteSquareOverlaps s (evalStru s rmin rmax mask gen))[k]? = some
      ((∑ j ∈ Finset.range s.cnt, if mask k j = true then s.occ j * squareOverlap s g rmin rmax k j else 0) / 2) := by
  obtain ⟨bonds, hd⟩ := delivers g hok _ _ _ hgen
  unfold evalStru
  rw [(siteSquareOverlaps_spec s _).2 k hk]
  congr 2
  have h := trace_sum g _ _ _ bonds hd mask fun i j b => if i = k then (max 0 (s.radius i + s.radius j - b.d)) ^ 2 * s.occ j else 0
  rw [← hcnt] at h
  refine h.trans ?_
  rw [Finset.sum_eq_single_of_mem k (Finset.mem_range.2 hk)]
  · refine Finset.sum_congr rfl fun j hj => ?_
    congr 1
    unfold squareOverlap
    rw [← sum_smul]
    congr 1
    funext v
    simp only [if_true]
    have := cut_olp s rmin rmax (fun x => x ^ 2 * s.occ j) (by simp) k j hk (Finset.mem_range.1 hj) v
    rw [mul_comm (s.occ j)]
    exact this
  · intro i _ hik
    refine Finset.sum_eq_zero fun j _ => ?_
    rw [cut_zero g _ _ i j _ fun v => if_neg hik, ite_self]

/-- C83. `coordinations()`: the sum of the occupancies of all atoms within the limits that overlap with the site. -/
theorem site_coordinations (s : Stru ℝ) (g : Geometry) (hok : g.Ok) (hcnt : s.cnt = g.cnt) (mask : ℕ → ℕ → Bool) (rmin rmax : ℝ)
    (gen : ℝ → ℝ → Gen Bond) (hgen : g.IsGen rmin (rmaxUsed s rmax) (gen rmin (rmaxUsed s rmax))) (k : ℕ) (hk : k < s.cnt) :
    (coordinations s (evalStru s rmin rmax mask gen))[k]? = some
      (∑ j ∈ Finset.range s.cnt, if mask k j = true then s.occ j * contacts s g rmin rmax k j else 0) := by
  classical
  obtain ⟨bonds, hd⟩ := delivers g hok _ _ _ hgen
  unfold evalStru
  rw [coordinations_spec s _ k hk]
  congr 1
  have h := trace_sum g _ _ _ bonds hd mask fun i j b => if i = k ∧ 0 < max 0 (s.radius i + s.radius j - b.d) then s.occ j else 0
  rw [← hcnt] at h
  refine h.trans ?_
  rw [Finset.sum_eq_single_of_mem k (Finset.mem_range.2 hk)]
  · refine Finset.sum_congr rfl fun j hj => ?_
    congr 1
    unfold contacts
    rw [← sum_smul]
    congr 1
    funext v
    simp only [true_and]
    have := cut_olp s rmin rmax (fun x => if 0 < x then s.occ j else 0) (by simp) k j hk (Finset.mem_range.1 hj) v
    refine this.trans ?_
    simp
  · intro i _ hik
    refine Finset.sum_eq_zero fun j _ => ?_
    rw [cut_zero g _ _ i j _ fun v => if_neg fun x => hik x.1, ite_self]

/-- C83. `totalSquareOverlap()`. -/
theorem total_square_overlap (s : Stru ℝ) (g : Geometry) (hok : g.Ok) (hcnt : s.cnt = g.cnt) (mask : ℕ → ℕ → Bool) (rmin rmax : ℝ)
    (gen : ℝ → ℝ → Gen Bond) (hgen : g.IsGen rmin (rmaxUsed s rmax) (gen rmin (rmaxUsed s rmax))) :
    totalSquareOverlap s (evalStru s rmin rmax mask gen) = total s g mask rmin rmax := by
  unfold totalSquareOverlap total
  simp only
  rw [foldl_add, zero_add, ← finset_sum_range, Finset.sum_div]
  refine Finset.sum_congr rfl fun k hk => ?_
  rw [List.getD_eq_getElem?_getD, site_square_overlaps s g hok hcnt mask rmin rmax gen hgen k (Finset.mem_range.1 hk), Option.getD_some,
    div_mul_eq_mul_div, div_mul_eq_mul_div, Finset.sum_mul, Finset.sum_mul]
  congr 1
  refine Finset.sum_congr rfl fun j _ => ?_
  by_cases h : mask k j = true
  · rw [if_pos h, if_pos h]; ring
  · rw [if_neg h, if_neg h, zero_mul, zero_mul]

/-- C83. The values do not depend on `rmax` as long as it is at least twice the largest radius, nor on `rmin` up to the tolerance
for coincident atoms. -/
theorem limits_irrelevant (s : Stru ℝ) (i j : ℕ) (hi : i < s.cnt) (hj : j < s.cnt) (rmin rmax : ℝ) (hmin : rmin ≤ 1 / 2 ^ 26)
    (hmax : maxSeparation s ≤ rmax) (v : V3) :
    olp s rmin rmax i j v = if 1 / 2 ^ 26 < V3.norm v then max 0 (s.radius i + s.radius j - V3.norm v) else 0 := by
  have hM := (maxSeparation_spec s).1 i hi j hj
  unfold olp
  by_cases h : 1 / 2 ^ 26 < V3.norm v
  · rw [if_pos h]
    by_cases h2 : InRange rmin rmax (V3.norm v)
    · rw [if_pos h2]
    · rw [if_neg h2]
      have : ¬ V3.norm v ≤ rmax := fun hh => h2 ⟨by linarith, hh, h⟩
      rw [max_eq_left (by linarith)]
  · rw [if_neg h, if_neg fun hh => h hh.2.2]

/-- C83. `getNeighborSites(i)`: the sites with an atom that overlaps with site `i`. -/
theorem neighbour_sites (s : Stru ℝ) (g : Geometry) (hok : g.Ok) (hcnt : s.cnt = g.cnt) (mask : ℕ → ℕ → Bool) (rmin rmax : ℝ)
    (gen : ℝ → ℝ → Gen Bond) (hgen : g.IsGen rmin (rmaxUsed s rmax) (gen rmin (rmaxUsed s rmax))) (i : ℕ) (hi : i < s.cnt) :
    (getNeighborSites s freshCache (evalStru s rmin rmax mask gen) i).Nodup ∧
    ∀ j, j ∈ getNeighborSites s freshCache (evalStru s rmin rmax mask gen) i ↔
      j < s.cnt ∧ mask i j = true ∧ Touch s g rmin rmax i j := by
  obtain ⟨bonds, hd⟩ := delivers g hok _ _ _ hgen
  unfold evalStru
  obtain ⟨h1, h2⟩ := getNeighborSites_spec s (basicTrace true (mapGen ovBond (gen rmin (rmaxUsed s rmax))) true mask s.cnt 0 1) i
  refine ⟨h1, fun j => ?_⟩
  rw [h2 j]
  have h := trace_mem g _ _ _ bonds hd mask fun a b c => a = i ∧ b = j ∧ 0 < max 0 (s.radius a + s.radius b - c.d)
  rw [← hcnt] at h
  refine h.trans ?_
  constructor
  · rintro ⟨a, ha, b, hb, hm, v, hv, hr, rfl, rfl, h0⟩
    exact ⟨hb, hm, v, hv, (range_olp s rmin rmax a b ha hb v).1 ⟨hr, h0⟩⟩
  · rintro ⟨hj, hm, v, hv, h0⟩
    obtain ⟨hr, h0⟩ := (range_olp s rmin rmax i j hi hj v).2 h0
    exact ⟨i, hi, j, hj, hm, v, hv, hr, rfl, rfl, h0⟩

open Classical in
/-- C83. `coordinationByTypes(i)`: for each type the occupancies of the overlapping atoms of that type. -/
theorem coordination_by_types (s : Stru ℝ) (g : Geometry) (hok : g.Ok) (hcnt : s.cnt = g.cnt) (mask : ℕ → ℕ → Bool) (rmin rmax : ℝ)
    (gen : ℝ → ℝ → Gen Bond) (hgen : g.IsGen rmin (rmaxUsed s rmax) (gen rmin (rmaxUsed s rmax))) (i : ℕ) (hi : i < s.cnt) (tp : String) :
    let r := coordinationByTypes s freshCache (evalStru s rmin rmax mask gen) i
    (find r tp).getD 0 = (∑ j ∈ Finset.range s.cnt, if mask i j = true ∧ s.typ j = tp then
      s.occ j * contacts s g rmin rmax i j else 0) ∧
    ((find r tp).isSome ↔ ∃ j < s.cnt, mask i j = true ∧ s.typ j = tp ∧ Touch s g rmin rmax i j) := by
  intro r
  obtain ⟨bonds, hd⟩ := delivers g hok _ _ _ hgen
  obtain ⟨-, h2, -⟩ := coordinationByTypes_spec s (basicTrace true (mapGen ovBond (gen rmin (rmaxUsed s rmax))) true mask s.cnt 0 1) i hi
    freshCache (Or.inl rfl)
  obtain ⟨h2, h3⟩ := h2 tp
  constructor
  · refine h2.trans ?_
    have h := trace_sum g _ _ _ bonds hd mask fun a b c => if a = i ∧ 0 < max 0 (s.radius a + s.radius b - c.d) ∧ s.typ b = tp
      then s.occ b else 0
    rw [← hcnt] at h
    refine h.trans ?_
    rw [Finset.sum_eq_single_of_mem i (Finset.mem_range.2 hi)]
    · refine Finset.sum_congr rfl fun j hj => ?_
      by_cases ht : s.typ j = tp
      · simp only [ht, and_true, true_and]
        congr 1
        unfold contacts
        rw [← sum_smul]
        congr 1
        funext v
        have := cut_olp s rmin rmax (fun x => if 0 < x then s.occ j else 0) (by simp) i j hi (Finset.mem_range.1 hj) v
        refine this.trans ?_
        simp
      · have hn : ¬ (mask i j = true ∧ s.typ j = tp) := fun x => ht x.2
        rw [if_neg hn, cut_zero g _ _ i j _ fun v => if_neg fun x => ht x.2.2, ite_self]
    · intro k _ hik
      refine Finset.sum_eq_zero fun j _ => ?_
      rw [cut_zero g _ _ k j _ fun v => if_neg fun x => hik x.1, ite_self]
  · refine h3.trans ?_
    have h := trace_mem g _ _ _ bonds hd mask fun a b c => a = i ∧ 0 < max 0 (s.radius a + s.radius b - c.d) ∧ s.typ b = tp
    rw [← hcnt] at h
    refine h.trans ?_
    constructor
    · rintro ⟨a, ha, b, hb, hm, v, hv, hr, rfl, h0, ht⟩
      exact ⟨b, hb, hm, ht, v, hv, (range_olp s rmin rmax a b ha hb v).1 ⟨hr, h0⟩⟩
    · rintro ⟨j, hj, hm, ht, v, hv, h0⟩
      obtain ⟨hr, h0⟩ := (range_olp s rmin rmax i j hi hj v).2 h0
      exact ⟨i, hi, j, hj, hm, v, hv, hr, rfl, h0, ht⟩

/-! ### Exchange of two atoms -/

/-- Bonds of a structure are listed from both ends. -/
theorem stru_balanced (s : Stru ℝ) (g : Geometry) (hok : g.Ok) (hcnt : s.cnt = g.cnt) (hm : ∀ i < s.cnt, s.mult i = g.mult i)
    (mask : ℕ → ℕ → Bool) (hmask : ∀ i j, mask i j = mask j i) (lo hi : ℝ) (gen : Gen Bond) (hgen : g.IsGen lo hi gen) :
    Balanced s (basicTrace true (mapGen ovBond gen) true mask s.cnt 0 1) := by
  obtain ⟨bonds, hd⟩ := delivers g hok _ _ _ hgen
  intro a b hab ψ
  have key : ∀ x y, ((basicTrace true (mapGen ovBond gen) true mask s.cnt 0 1).map fun c =>
      if c.i0 = x ∧ c.i1 = y then (s.mult x : ℝ) * ψ c.bond.d else 0).sum =
      if x < s.cnt ∧ y < s.cnt ∧ mask x y = true then (s.mult x : ℝ) * g.sum x y (cut lo hi fun v => ψ (V3.norm v)) else 0 := by
    intro x y
    have h := trace_sum g _ _ _ bonds hd mask fun i j b => if i = x ∧ j = y then (s.mult x : ℝ) * ψ b.d else 0
    rw [← hcnt] at h
    refine h.trans ?_
    by_cases hxy : x < s.cnt ∧ y < s.cnt
    · obtain ⟨hx, hy⟩ := hxy
      rw [Finset.sum_eq_single_of_mem x (Finset.mem_range.2 hx), Finset.sum_eq_single_of_mem y (Finset.mem_range.2 hy)]
      · by_cases hu : mask x y = true
        · rw [if_pos hu, if_pos ⟨hx, hy, hu⟩, ← sum_smul]
          congr 1
          funext v
          unfold cut
          simp only [and_self, if_true, mul_ite, mul_zero]
          rfl
        · rw [if_neg hu, if_neg fun h => hu h.2.2]
      · intro j _ hj
        rw [cut_zero g _ _ x j _ fun v => if_neg fun h => hj h.2, ite_self]
      · intro i _ hi
        refine Finset.sum_eq_zero fun j _ => ?_
        rw [cut_zero g _ _ i j _ fun v => if_neg fun h => hi h.1, ite_self]
    · rw [if_neg fun h => hxy ⟨h.1, h.2.1⟩]
      refine Finset.sum_eq_zero fun i hi => Finset.sum_eq_zero fun j hj => ?_
      have hn : ¬ (i = x ∧ j = y) := fun h => hxy ⟨h.1 ▸ Finset.mem_range.1 hi, h.2 ▸ Finset.mem_range.1 hj⟩
      rw [cut_zero g _ _ i j _ fun v => if_neg hn, ite_self]
  rw [key, key, hmask b a]
  by_cases h : a < s.cnt ∧ b < s.cnt ∧ mask a b = true
  · have h' : b < s.cnt ∧ a < s.cnt ∧ mask a b = true := ⟨h.2.1, h.1, h.2.2⟩
    rw [if_pos h, if_pos h', hm a h.1, hm b h.2.1]
    exact balance g hok lo hi ψ a b (hcnt ▸ h.1) (hcnt ▸ h.2.1)
  · have h' : ¬ (b < s.cnt ∧ a < s.cnt ∧ mask a b = true) := fun x => h ⟨x.2.1, x.1, x.2.2⟩
    rw [if_neg h, if_neg h']

/-- The exchange of two radii does not change the largest. -/
theorem rmaxUsed_swap (s : Stru ℝ) (i j : ℕ) (hi : i < s.cnt) (hj : j < s.cnt) (rmax : ℝ) :
    rmaxUsed (swapStru s i j) rmax = rmaxUsed s rmax := by
  unfold rmaxUsed
  rw [maxSeparation_swap s i j hi hj]

/-- C83. `flipDiffTotal(i, j)` is the change of the total square overlap when the atoms at sites `i` and `j` exchange their radii. -/
theorem flip_difference (s : Stru ℝ) (g : Geometry) (hok : g.Ok) (hcnt : s.cnt = g.cnt) (hm : ∀ i < s.cnt, s.mult i = g.mult i)
    (mask : ℕ → ℕ → Bool) (hmask : ∀ i j, mask i j = mask j i) (rmin rmax : ℝ)
    (gen : ℝ → ℝ → Gen Bond) (hgen : g.IsGen rmin (rmaxUsed s rmax) (gen rmin (rmaxUsed s rmax)))
    (order : List ℕ → List ℕ) (ho : ∀ l, (order l).Perm l) (i j : ℕ) (hi : i < s.cnt) (hj : j < s.cnt) :
    flipDiffTotal s freshCache (evalStru s rmin rmax mask gen) order i j =
      some (total (swapStru s i j) g mask rmin rmax - total s g mask rmin rmax) := by
  obtain ⟨bonds, hd⟩ := delivers g hok _ _ _ hgen
  have hin : ∀ c ∈ basicTrace true (mapGen ovBond (gen rmin (rmaxUsed s rmax))) true mask s.cnt 0 1, c.i0 < s.cnt ∧ c.i1 < s.cnt := by
    intro c hc
    obtain ⟨a, ha, b, hb, -, v, -, -, h⟩ := (trace_mem g _ _ _ bonds hd mask fun a b c' => c.i0 = a ∧ c.i1 = b).1
      ⟨c, hcnt ▸ hc, rfl, rfl⟩
    rw [h.1, h.2, hcnt]
    exact ⟨ha, hb⟩
  have h := (flipDiffTotal_spec s _ hin (stru_balanced s g hok hcnt hm mask hmask _ _ _ hgen) freshCache (cacheOK_fresh _) order ho i j).2
    (by omega)
  have e : totalSquareOverlap (swapStru s i j) (evalStru s rmin rmax mask gen) = total (swapStru s i j) g mask rmin rmax := by
    have hs := total_square_overlap (swapStru s i j) g hok hcnt mask rmin rmax gen (by rw [rmaxUsed_swap s i j hi hj]; exact hgen)
    rw [← hs]
    unfold evalStru
    rw [rmaxUsed_swap s i j hi hj]
    rfl
  rw [← total_square_overlap s g hok hcnt mask rmin rmax gen hgen, ← e]
  simp only [Int.toNat_natCast] at h
  exact h

/-! ### Neighborhoods -/

/-- Sites connected by overlaps of allowed pairs. -/
def Connected (s : Stru ℝ) (g : Geometry) (mask : ℕ → ℕ → Bool) (rmin rmax : ℝ) : ℕ → ℕ → Prop :=
  Relation.EqvGen fun i j => i < s.cnt ∧ j < s.cnt ∧ mask i j = true ∧ Touch s g rmin rmax i j

/-- C83. `neighborhoods()`: the classes of sites connected by overlaps; a site that overlaps with nothing forms its own class
unless all its pairs are masked. -/
theorem neighborhoods_end_to_end (s : Stru ℝ) (g : Geometry) (hok : g.Ok) (hcnt : s.cnt = g.cnt) (mask : ℕ → ℕ → Bool)
    (hmask : ∀ i j, mask i j = mask j i)
    (rmin rmax : ℝ) (gen : ℝ → ℝ → Gen Bond) (hgen : g.IsGen rmin (rmaxUsed s rmax) (gen rmin (rmaxUsed s rmax))) :
    let N := neighborhoods s (evalStru s rmin rmax mask gen) mask
    (∀ S ∈ N, S ≠ []) ∧ N.Pairwise (fun S T => ∀ x, x ∈ S → x ∉ T) ∧
    (∀ S ∈ N, ∀ x ∈ S, ∀ y, y ∈ S ↔ Connected s g mask rmin rmax x y) ∧
    (∀ x < s.cnt, (∃ S ∈ N, x ∈ S) ↔ ∃ j < s.cnt, mask x j = true) := by
  intro N
  obtain ⟨bonds, hd⟩ := delivers g hok _ _ _ hgen
  obtain ⟨h1, h2, h3, h4⟩ := neighborhoods_spec s (basicTrace true (mapGen ovBond (gen rmin (rmaxUsed s rmax))) true mask s.cnt 0 1) mask
  have hE : ∀ x y, (x, y) ∈ ((basicTrace true (mapGen ovBond (gen rmin (rmaxUsed s rmax))) true mask s.cnt 0 1).filter
      fun c => decide (0 < overlapOf s.radius c)).map (fun c => (c.i0, c.i1)) ↔
      x < s.cnt ∧ y < s.cnt ∧ mask x y = true ∧ Touch s g rmin rmax x y := by
    intro x y
    have h := trace_mem g _ _ _ bonds hd mask fun a b c => 0 < max 0 (s.radius a + s.radius b - c.d) ∧ (a, b) = (x, y)
    rw [← hcnt] at h
    rw [List.mem_map]
    have e : (∃ a ∈ (basicTrace true (mapGen ovBond (gen rmin (rmaxUsed s rmax))) true mask s.cnt 0 1).filter
        (fun c => decide (0 < overlapOf s.radius c)), (a.i0, a.i1) = (x, y)) ↔
        ∃ c ∈ basicTrace true (mapGen ovBond (gen rmin (rmaxUsed s rmax))) true mask s.cnt 0 1,
          0 < max 0 (s.radius c.i0 + s.radius c.i1 - c.bond.d) ∧ (c.i0, c.i1) = (x, y) := by
      simp only [List.mem_filter, decide_eq_true_eq, and_assoc]
      rfl
    rw [e, h]
    constructor
    · rintro ⟨a, ha, b, hb, hm, v, hv, hr, h0, he⟩
      obtain ⟨rfl, rfl⟩ := Prod.mk.inj he
      exact ⟨ha, hb, hm, v, hv, (range_olp s rmin rmax a b ha hb v).1 ⟨hr, h0⟩⟩
    · rintro ⟨hx, hy, hm, v, hv, h0⟩
      obtain ⟨hr, h0⟩ := (range_olp s rmin rmax x y hx hy v).2 h0
      exact ⟨x, hx, y, hy, hm, v, hv, hr, h0, rfl⟩
  refine ⟨h1, h2, ?_, ?_⟩
  · intro S hS x hx y
    rw [h3 S hS x hx y]
    unfold Linked Connected
    have : (fun x y => (x, y) ∈ ((basicTrace true (mapGen ovBond (gen rmin (rmaxUsed s rmax))) true mask s.cnt 0 1).filter
      fun c => decide (0 < overlapOf s.radius c)).map (fun c => (c.i0, c.i1))) =
      fun i j => i < s.cnt ∧ j < s.cnt ∧ mask i j = true ∧ Touch s g rmin rmax i j := by
      funext x y
      exact propext (hE x y)
    rw [this]
  · intro x hx
    refine (h4 x hx).trans ?_
    have hmm : ∀ j, mask (min x j) (max x j) = mask x j := by
      intro j
      rcases le_total x j with h | h
      · rw [min_eq_left h, max_eq_right h]
      · rw [min_eq_right h, max_eq_left h, hmask]
    constructor
    · rintro (⟨⟨a, b⟩, he, hx'⟩ | ⟨j, hj, hm⟩)
      · obtain ⟨ha, hb, hm, ht⟩ := (hE a b).1 he
        rcases hx' with h | h
        · exact ⟨b, hb, by rw [h]; exact hm⟩
        · exact ⟨a, ha, by rw [h, hmask]; exact hm⟩
      · exact ⟨j, hj, by rw [← hmm]; exact hm⟩
    · rintro ⟨j, hj, hm⟩
      exact Or.inr ⟨j, hj, by rw [hmm]; exact hm⟩

end Verif.Overlap
