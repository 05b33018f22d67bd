import Verif.Model.BVSum
import Verif.Props.BV
import Verif.Props.CrystalExample
/-! C82: bond valence sums of finite structures, periodic structures and crystals. -/
set_option linter.unusedSectionVars false
namespace Verif.BV
open Verif.BondGen Verif.Eval Verif.R3 Verif.Lattice Verif.Periodic
open Verif.PDFCache (shift imageVec IsPeriodicGen imageBonds periodic_genSpec imageBonds_sum wrapVec wrap_equiv IsCrystalGen
  orbitBonds crystal_genSpec orbitBonds_sum orbit_finite orbitSum Orbit moved orbitSum_congr orbit_balance headD_mem ExactCrystal SpaceGroup
  spaceGroup_sym equivPos_ne basicLoop_congr wrapVec_neg distance_comm)
open Verif.Crystal (Crys equivPos)

/-! ### Specification -/

/-- The valence of a bond of length `d` between sites `k` and `j`, with the parameters found for the later site first. -/
noncomputable def pairVal (std : SetBV ℝ) (t : Table ℝ) (st : ℕ → Site) (k j : ℕ) (d : ℝ) : ℝ :=
  bondVal std t st (max k j) (min k j) d

/-- What a neighbour at distance `d` of site `k` that is an atom of site `j` adds to the sum of `k`: nothing beyond `R` or for a
coincident atom. -/
noncomputable def neighbour (std : SetBV ℝ) (t : Table ℝ) (st : ℕ → Site) (R : ℝ) (k j : ℕ) (d : ℝ) : ℝ :=
  if 1 / 2 ^ 26 < d ∧ d ≤ R then siteSign t st k * pairVal std t st k j d * (st j).occ else 0

/-- The set of (symbol, valence) pairs of the sites, in any order of iteration. -/
def IsSymVals (t : Table ℝ) (st : ℕ → Site) (cnt : ℕ) (svs : List (Str × Int)) : Prop :=
  svs.Nodup ∧ ∀ x, x ∈ svs ↔ ∃ i < cnt, symval t (st i) = x

/-! ### The half sum -/

theorem traceSum_perm {B : Type} (f : Nat → Nat → B → ℕ → ℝ) {a b : List (Contrib B)} (h : a.Perm b) :
    traceSum f a = traceSum f b := (h.map _).sum_eq

theorem flatMap_sum {α : Type} (l : List ℕ) (g : ℕ → List α) (f : α → ℝ) :
    ((l.flatMap g).map f).sum = (l.map fun i => ((g i).map f).sum).sum := by
  induction l with
  | nil => rfl
  | cons a l ih => simp only [List.flatMap_cons, List.map_append, List.sum_append, List.map_cons, List.sum_cons, ih]

/-- C82. The value of site `k` after the half-sum loop, for any generator and table: each bond with an earlier site is the one
seen from `k`, each bond with a later site the one seen from that site. -/
theorem half_exact (std : SetBV ℝ) (t : Table ℝ) (st : ℕ → Site) (rule : Bool) (gen : Gen ℝ) (c : ℕ → ℕ → List ℝ)
    (hg : GenSpec gen c) (use : ℕ → ℕ → Bool) (hu : ∀ i j, use i j = use j i) (cnt k : ℕ) (hk : k < cnt) :
    evalBVS std t st (basicTrace rule gen false use cnt 0 1) k =
      ∑ j ∈ Finset.range cnt, if use k j = true then
        ((c (max k j) (min k j)).map fun d => siteSign t st k * pairVal std t st k j d * (st j).occ).sum else 0 := by
  rw [evalBVS_eq, traceSum_perm _ (basic_serial_spec rule gen c hg false use cnt 0)]
  unfold traceSum
  rw [sum_apply_list]
  unfold specContribs
  rw [flatMap_sum, ← finset_sum_range]
  set A : ℕ → ℕ → ℝ := fun i j => ((c i j).map fun d => siteSign t st i * (bondVal std t st i j d / 2) * (st j).occ).sum with hA
  set B : ℕ → ℕ → ℝ := fun i j => ((c i j).map fun d => siteSign t st j * (bondVal std t st i j d / 2) * (st i).occ).sum with hB
  have step : ∀ i ∈ Finset.range cnt, (((List.range cnt).flatMap fun j =>
      if (false = true ∨ j ≤ i) ∧ use i j = true then
        (c i j).map fun b => (⟨i, j, if false = true ∨ i = j then 1 else 2, b⟩ : Contrib ℝ) else []).map
        fun a => (a.scale • contribution std t st a.i0 a.i1 a.bond) k).sum =
      (∑ j ∈ Finset.range cnt, if k = i then (if j ≤ k ∧ use k j = true then (if k = j then 1 else 2) * A k j else 0) else 0) +
      ∑ j ∈ Finset.range cnt, if k = j then (if k ≤ i ∧ use i k = true then (if i = k then 1 else 2) * B i k else 0) else 0 := by
    intro i _
    rw [flatMap_sum, ← finset_sum_range, ← Finset.sum_add_distrib]
    refine Finset.sum_congr rfl fun j _ => ?_
    by_cases h : (false = true ∨ j ≤ i) ∧ use i j = true
    · rw [if_pos h, List.map_map]
      have hji : j ≤ i := by simpa using h.1
      have e : ((fun a : Contrib ℝ => (a.scale • contribution std t st a.i0 a.i1 a.bond) k) ∘ fun b =>
          (⟨i, j, if false = true ∨ i = j then 1 else 2, b⟩ : Contrib ℝ)) = fun d =>
          (if k = i then (if k = j then 1 else 2) * (siteSign t st i * (bondVal std t st i j d / 2) * (st j).occ) else 0) +
          (if k = j then (if i = k then 1 else 2) * (siteSign t st j * (bondVal std t st i j d / 2) * (st i).occ) else 0) := by
        funext d
        simp only [Function.comp, Pi.smul_apply, zsmul_eq_mul, contribution]
        by_cases h1 : k = i <;> by_cases h2 : k = j
        · subst h1; subst h2; simp
        · subst h1; simp [h2]
        · subst h2; simp [h1, Ne.symm h1]
        · simp [h1, h2]
      rw [e, sum_map_add_list, sum_map_ite_list, sum_map_ite_list, List.sum_map_mul_left, List.sum_map_mul_left]
      congr 1
      · by_cases h1 : k = i
        · subst h1
          have hp : j ≤ k ∧ use k j = true := ⟨hji, h.2⟩
          simp only [if_true, if_pos hp, hA]
        · rw [if_neg h1, if_neg h1]
      · by_cases h2 : k = j
        · subst h2
          have hp : k ≤ i ∧ use i k = true := ⟨hji, h.2⟩
          simp only [if_true, if_pos hp, hB]
        · rw [if_neg h2, if_neg h2]
    · rw [if_neg h]
      have h' : ¬ (j ≤ i ∧ use i j = true) := fun x => h ⟨Or.inr x.1, x.2⟩
      have e1 : (if k = i then (if j ≤ k ∧ use k j = true then (if k = j then 1 else 2) * A k j else 0) else 0) = (0 : ℝ) := by
        by_cases h1 : k = i
        · subst h1; rw [if_pos rfl, if_neg h']
        · rw [if_neg h1]
      have e2 : (if k = j then (if k ≤ i ∧ use i k = true then (if i = k then 1 else 2) * B i k else 0) else 0) = (0 : ℝ) := by
        by_cases h1 : k = j
        · subst h1; rw [if_pos rfl, if_neg h']
        · rw [if_neg h1]
      rw [e1, e2]; simp
  rw [Finset.sum_congr rfl step, Finset.sum_add_distrib]
  have e1 : (∑ i ∈ Finset.range cnt, ∑ j ∈ Finset.range cnt, if k = i then
      (if j ≤ k ∧ use k j = true then (if k = j then 1 else 2) * A k j else 0) else 0) =
      ∑ j ∈ Finset.range cnt, if j ≤ k ∧ use k j = true then (if k = j then 1 else 2) * A k j else 0 := by
    rw [Finset.sum_comm]
    refine Finset.sum_congr rfl fun j _ => ?_
    rw [Finset.sum_ite_eq, if_pos (Finset.mem_range.2 hk)]
  have e2 : (∑ i ∈ Finset.range cnt, ∑ j ∈ Finset.range cnt, if k = j then
      (if k ≤ i ∧ use i k = true then (if i = k then 1 else 2) * B i k else 0) else 0) =
      ∑ i ∈ Finset.range cnt, if k ≤ i ∧ use i k = true then (if i = k then 1 else 2) * B i k else 0 := by
    refine Finset.sum_congr rfl fun i _ => ?_
    rw [Finset.sum_ite_eq, if_pos (Finset.mem_range.2 hk)]
  rw [e1, e2, ← Finset.sum_add_distrib]
  refine Finset.sum_congr rfl fun j _ => ?_
  by_cases h : use k j = true
  · have h' : use j k = true := by rw [hu]; exact h
    rw [if_pos h]
    have hterm : ∀ x y, ((c x y).map fun d => siteSign t st k * bondVal std t st x y d * (st j).occ).sum =
        2 * ((c x y).map fun d => siteSign t st k * (bondVal std t st x y d / 2) * (st j).occ).sum := by
      intro x y
      rw [← List.sum_map_mul_left]
      congr 1
      refine List.map_congr_left fun d _ => ?_
      ring
    unfold pairVal
    rcases lt_trichotomy j k with hlt | heq | hgt
    · have h1 : j ≤ k ∧ use k j = true := ⟨hlt.le, h⟩
      have h2 : ¬ (k ≤ j ∧ use j k = true) := fun x => absurd x.1 (not_le.2 hlt)
      rw [if_pos h1, if_neg h2, if_neg hlt.ne', max_eq_left hlt.le, min_eq_right hlt.le,
        add_zero, hterm]
    · subst heq
      have h1 : j ≤ j ∧ use j j = true := ⟨le_rfl, h⟩
      rw [max_self, min_self, hterm]
      simp only [if_pos h1, if_true, hA, hB]
      ring
    · have h1 : ¬ (j ≤ k ∧ use k j = true) := fun x => absurd x.1 (not_le.2 hgt)
      have h2 : k ≤ j ∧ use j k = true := ⟨hgt.le, h'⟩
      rw [if_neg h1, if_pos h2, if_neg hgt.ne', max_eq_right hgt.le, min_eq_left hgt.le,
        zero_add, hterm]
  · have h' : ¬ use j k = true := by rw [hu]; exact h
    have h1 : ¬ (j ≤ k ∧ use k j = true) := fun x => h x.2
    have h2 : ¬ (k ≤ j ∧ use j k = true) := fun x => h' x.2
    rw [if_neg h, if_neg h1, if_neg h2, add_zero]

theorem distGen_spec (gen : Gen Bond) (c : ℕ → ℕ → List Bond) (hg : GenSpec gen c) :
    GenSpec (distGen gen) fun i j => (c i j).map Bond.distance := by
  intro i sel
  refine ((hg i sel).map _).trans (List.Perm.of_eq ?_)
  rw [List.map_flatMap]
  congr 1
  funext j
  rw [List.map_map, List.map_map]
  rfl

/-! ### Finite structures -/

theorem max_min_cases (k j : ℕ) : (max k j = k ∧ min k j = j) ∨ (max k j = j ∧ min k j = k) := by
  rcases le_total k j with h | h
  · exact Or.inr ⟨max_eq_right h, min_eq_left h⟩
  · exact Or.inl ⟨max_eq_left h, min_eq_right h⟩

/-- C82. After `eval` of a finite structure the value of a site is its bond valence sum: the valences of its bonds with all
atoms closer than `getRmaxUsed()`, times their occupancies, with the sign of its own valence.  The lower limit `rmin` of the
calculator plays no part. -/
theorem finite_sums (std : SetBV ℝ) (t : Table ℝ) (st : ℕ → Site) (svs : List (Str × Int)) (rmax eps : ℝ) (m : Mask.State)
    (pos : ℕ → V3) (old : ℕ → List ℕ → Cur) (cnt k : ℕ) (hk : k < cnt) :
    evalSums std t st svs rmax eps (fun i j => Mask.getPairMask m i j) cnt (finiteGen pos old) k =
      ∑ j ∈ Finset.range cnt, if Mask.getPairMask m k j = true then
        neighbour std t st (rmaxUsed std t svs rmax eps) k j (V3.distance (pos k) (pos j)) else 0 := by
  unfold evalSums
  set R := rmaxUsed std t svs rmax eps
  have hg : GenSpec (finiteGen pos old R) fun i j => specBond ⟨pos i, 0, R⟩ j (pos j) := base_loop_genSpec pos 0 R old
  rw [half_exact std t st true _ _ (distGen_spec _ _ hg) _ (fun i j => Mask.mask_symmetric m i j) cnt k hk]
  refine Finset.sum_congr rfl fun j _ => ?_
  congr 1
  have e : ((specBond ⟨pos (max k j), 0, R⟩ (min k j) (pos (min k j))).map Bond.distance) =
      if 1 / 2 ^ 26 < V3.distance (pos k) (pos j) ∧ V3.distance (pos k) (pos j) ≤ R then [V3.distance (pos k) (pos j)] else [] := by
    have hd : V3.distance (pos (min k j)) (pos (max k j)) = V3.distance (pos k) (pos j) := by
      rcases max_min_cases k j with ⟨h1, h2⟩ | ⟨h1, h2⟩ <;> rw [h1, h2]
      exact distance_comm _ _
    unfold specBond GoodDist sqrtEps
    rw [hd]
    have h0 : (0 : ℝ) < 1 / 2 ^ 26 := by positivity
    by_cases h : 1 / 2 ^ 26 < V3.distance (pos k) (pos j) ∧ V3.distance (pos k) (pos j) ≤ R
    · rw [if_pos h, if_pos ⟨(h0.trans h.1).le, h.2, h.1⟩]; simp
    · rw [if_neg h, if_neg fun x => h ⟨x.2.2, x.2.1⟩]; rfl
  rw [e]
  unfold neighbour
  split <;> simp

/-! ### Periodic structures -/

open Classical in
/-- C82. The same for a periodic structure: the sum runs over all lattice images of all atoms (C15: atoms must not lie within
the tolerance 2^-26 below a cell face), for any history of the bond generator. -/
theorem periodic_sums (std : SetBV ℝ) (t : Table ℝ) (st : ℕ → Site) (svs : List (Str × Int)) (rmax eps : ℝ) (m : Mask.State)
    (L : Lat) (hL : Reachable L) (xyz : ℕ → V3) (hx : ∀ i, Unsnapped L (xyz i)) (cnt k : ℕ) (hk : k < cnt)
    (gen : ℝ → Gen Bond) (hgen : IsPeriodicGen L xyz 0 (rmaxUsed std t svs rmax eps) (gen (rmaxUsed std t svs rmax eps))) :
    (∀ j, (Function.support fun s : ℤ × ℤ × ℤ =>
      neighbour std t st (rmaxUsed std t svs rmax eps) k j (V3.norm (imageVec L xyz k j s))).Finite) ∧
    evalSums std t st svs rmax eps (fun i j => Mask.getPairMask m i j) cnt gen k =
      ∑ j ∈ Finset.range cnt, if Mask.getPairMask m k j = true then
        ∑ᶠ s : ℤ × ℤ × ℤ, neighbour std t st (rmaxUsed std t svs rmax eps) k j (V3.norm (imageVec L xyz k j s)) else 0 := by
  unfold evalSums
  set R := rmaxUsed std t svs rmax eps
  obtain ⟨ts, hnd, hcov, hspec⟩ := periodic_genSpec L hL xyz 0 R (gen R) hgen
  have hbond : ∀ i j s, (imageBond L xyz i (s, j)).distance = V3.norm (wrapVec L xyz i j s) := fun i j s => rfl
  have h0 : (0 : ℝ) < 1 / 2 ^ 26 := by positivity
  have hgd : ∀ (a : V3) (d : ℝ), GoodDist ⟨a, 0, R⟩ d ↔ 1 / 2 ^ 26 < d ∧ d ≤ R := by
    intro a d
    unfold GoodDist sqrtEps
    exact ⟨fun h => ⟨h.2.2, h.2.1⟩, fun h => ⟨(h0.trans h.1).le, h.2, h.1⟩⟩
  constructor
  · intro j
    obtain ⟨e, he⟩ := wrap_equiv L hL xyz hx k j
    refine Set.Finite.subset ((Finset.finite_toSet ts.toFinset).image e) ?_
    intro s hs
    rw [Function.mem_support] at hs
    refine ⟨e.symm s, ?_, by simp⟩
    rw [Finset.mem_coe, List.mem_toFinset]
    refine hcov _ k j ?_
    rw [hgd, hbond, he, Equiv.apply_symm_apply]
    by_contra hn
    exact hs (if_neg hn)
  · rw [half_exact std t st true _ _ (distGen_spec _ _ hspec) _ (fun i j => Mask.mask_symmetric m i j) cnt k hk]
    refine Finset.sum_congr rfl fun j _ => ?_
    congr 1
    rw [List.map_map]
    obtain ⟨e, he⟩ := wrap_equiv L hL xyz hx k j
    have hsum : ∀ x y, ((imageBonds L xyz 0 R ts x y).map ((fun d => siteSign t st k * pairVal std t st k j d * (st j).occ) ∘ Bond.distance)).sum =
        ∑ᶠ s : ℤ × ℤ × ℤ, neighbour std t st R k j (V3.norm (wrapVec L xyz x y s)) := by
      intro x y
      rw [imageBonds_sum _ _ _ _ _ hnd _ _ (fun s => hcov s x y)]
      refine finsum_congr fun s => ?_
      unfold neighbour
      rw [hbond]
      by_cases h : GoodDist ⟨L.ucvCartesian (xyz x), 0, R⟩ (V3.norm (wrapVec L xyz x y s))
      · rw [if_pos h, if_pos ((hgd _ _).1 h)]; rfl
      · rw [if_neg h, if_neg fun hh => h ((hgd _ _).2 hh)]
    have hkj : (∑ᶠ s : ℤ × ℤ × ℤ, neighbour std t st R k j (V3.norm (wrapVec L xyz k j s))) =
        ∑ᶠ s : ℤ × ℤ × ℤ, neighbour std t st R k j (V3.norm (imageVec L xyz k j s)) := by
      rw [← finsum_comp_equiv e (f := fun s => neighbour std t st R k j (V3.norm (imageVec L xyz k j s)))]
      refine finsum_congr fun s => ?_
      rw [he]
    have hjk : (∑ᶠ s : ℤ × ℤ × ℤ, neighbour std t st R k j (V3.norm (wrapVec L xyz j k s))) =
        ∑ᶠ s : ℤ × ℤ × ℤ, neighbour std t st R k j (V3.norm (wrapVec L xyz k j s)) := by
      rw [← finsum_comp_equiv (Equiv.neg (ℤ × ℤ × ℤ)) (f := fun s => neighbour std t st R k j (V3.norm (wrapVec L xyz j k s)))]
      refine finsum_congr fun s => ?_
      rw [Equiv.neg_apply, wrapVec_neg, PDFCache.norm_neg]
    rcases max_min_cases k j with ⟨h1, h2⟩ | ⟨h1, h2⟩ <;> rw [h1, h2, hsum]
    · exact hkj
    · rw [hjk, hkj]

/-! ### Crystals -/

open Classical in
/-- C82. For a crystal given by its asymmetric unit and the operations of a space group (images that coincide within the
precision coincide exactly) the neighbours of site `k` are all equivalent positions of all sites and their lattice images, but
those of a later site `j` are counted with the weight (multiplicity of `k`) / (multiplicity of `j`). -/
theorem crystal_sums (std : SetBV ℝ) (t : Table ℝ) (st : ℕ → Site) (svs : List (Str × Int)) (rmax eps : ℝ) (m : Mask.State)
    (c : Crys) (hc : ExactCrystal c) (hS : SpaceGroup c.L c.ops) (k : ℕ) (hk : k < c.atoms.length)
    (gen : ℝ → Gen Bond) (hgen : IsCrystalGen c 0 (rmaxUsed std t svs rmax eps) (gen (rmaxUsed std t svs rmax eps))) :
    evalSums std t st svs rmax eps (fun i j => Mask.getPairMask m i j) c.atoms.length gen k =
      ∑ j ∈ Finset.range c.atoms.length, if Mask.getPairMask m k j = true then
        (if j ≤ k then 1 else ((equivPos c k).length : ℝ) / ((equivPos c j).length : ℝ)) *
        ((equivPos c j).map fun q => ∑ᶠ s : ℤ × ℤ × ℤ, neighbour std t st (rmaxUsed std t svs rmax eps) k j
          (V3.distance (moved c.L q s) ((equivPos c k).headD V3.zero))).sum else 0 := by
  unfold evalSums
  set R := rmaxUsed std t svs rmax eps
  set N := c.atoms.length with hN
  set O := equivPos c with hO
  have hW : PDFCache.CrystalSym c.L N O (fun _ _ _ _ => (0 : ℝ)) :=
    spaceGroup_sym c hc hS _ (fun _ _ _ _ _ _ _ _ _ _ _ => rfl) (fun _ _ _ _ _ _ _ _ => rfl)
  obtain ⟨ts, hnd, hcov, hspec⟩ := crystal_genSpec c hc.lat hc.eps hc.ops 0 R (gen R) hgen
  rw [← hN, ← hO] at hcov hspec
  have hhead : ∀ i < N, (O i).headD V3.zero ∈ O i := fun i hi => headD_mem _ _ (hW.ne i hi)
  have h0 : (0 : ℝ) < 1 / 2 ^ 26 := by positivity
  have hgd : ∀ (a : V3) (d : ℝ), GoodDist ⟨a, 0, R⟩ d ↔ 1 / 2 ^ 26 < d ∧ d ≤ R := by
    intro a d
    unfold GoodDist sqrtEps
    exact ⟨fun h => ⟨h.2.2, h.2.1⟩, fun h => ⟨(h0.trans h.1).le, h.2, h.1⟩⟩
  -- the generator on all sites
  let gen1 : Gen Bond := fun i sel => if i < N ∧ ∀ j ∈ sel, j < N then gen R i sel else
    sel.flatMap fun j => (orbitBonds c.L N O 0 R ts i j).map fun b => (j, b)
  have hspec1 : GenSpec gen1 (orbitBonds c.L N O 0 R ts) := by
    intro i sel
    by_cases h : i < N ∧ ∀ j ∈ sel, j < N
    · have e : gen1 i sel = gen R i sel := if_pos h
      rw [e]
      exact hspec i sel h.1 h.2
    · have e : gen1 i sel = sel.flatMap fun j => (orbitBonds c.L N O 0 R ts i j).map fun b => (j, b) := if_neg h
      rw [e]
  have hg1 : basicTrace true (distGen (gen R)) false (fun i j => Mask.getPairMask m i j) N 0 1 =
      basicTrace true (distGen gen1) false (fun i j => Mask.getPairMask m i j) N 0 1 := by
    unfold basicTrace
    simp only
    rw [basicLoop_congr (distGen (gen R)) (distGen gen1) _ _ _ _ _ _ ?_ _ (fun i hi => List.mem_range.1 hi)]
    intro i sel hi hsel
    unfold distGen
    rw [show gen1 i sel = gen R i sel from if_pos ⟨hi, hsel⟩]
  rw [hg1, half_exact std t st true _ _ (distGen_spec _ _ hspec1) _ (fun i j => Mask.mask_symmetric m i j) N k hk]
  refine Finset.sum_congr rfl fun j hj => ?_
  rw [Finset.mem_range] at hj
  congr 1
  rw [List.map_map]
  set φ : ℝ → ℝ → ℝ := fun d _ => neighbour std t st R k j d with hφ
  have hsum : ∀ x y, x < N → y < N → ((orbitBonds c.L N O 0 R ts x y).map
      ((fun d => siteSign t st k * pairVal std t st k j d * (st j).occ) ∘ Bond.distance)).sum =
      orbitSum c.L (O y) fun z => φ (V3.distance z ((O x).headD V3.zero)) 0 := by
    intro x y hx hy
    rw [orbitBonds_sum c.L N O _ _ ts hnd x y hx hy (fun q hq s hd => hcov x y _ q s hx hy (hhead x hx) hq hd)]
    refine orbitSum_congr c.L (O y) _ _ fun z _ => ?_
    simp only [hφ, neighbour]
    by_cases h : GoodDist ⟨(O x).headD V3.zero, 0, R⟩ (V3.distance z ((O x).headD V3.zero))
    · rw [if_pos h, if_pos ((hgd _ _).1 h)]; rfl
    · rw [if_neg h, if_neg fun hh => h ((hgd _ _).2 hh)]
  have hfin : ∀ x y, x < N → y < N → ∀ p ∈ O x, (Orbit c.L (O y) ∩ Function.support fun z => φ (V3.distance z p) 0).Finite := by
    intro x y hx hy p hp
    refine orbit_finite c.L (O y) ts _ fun q hq s hs => ?_
    refine hcov x y p q s hx hy hp hq ?_
    rw [hgd]
    by_contra hn
    exact hs (if_neg hn)
  have hgoal : ((O j).map fun q => ∑ᶠ s : ℤ × ℤ × ℤ, neighbour std t st R k j
      (V3.distance (moved c.L q s) ((O k).headD V3.zero))).sum =
      orbitSum c.L (O j) fun z => φ (V3.distance z ((O k).headD V3.zero)) 0 := rfl
  rw [hgoal]
  by_cases hjk : j ≤ k
  · rw [max_eq_left hjk, min_eq_right hjk, hsum k j hk hj, if_pos hjk, one_mul]
  · rw [if_neg hjk]
    have hjk' : k ≤ j := (not_le.1 hjk).le
    rw [max_eq_right hjk', min_eq_left hjk', hsum j k hj hk]
    have hb := orbit_balance c.L hc.lat N O (fun _ _ _ _ => (0 : ℝ)) hW k j hk hj φ (hfin k j hk hj) (hfin j k hj hk)
    have hne : ((O j).length : ℝ) ≠ 0 := by
      have := List.length_pos_iff.2 (hW.ne j hj)
      exact_mod_cast this.ne'
    field_simp
    rw [mul_comm ((O j).length : ℝ), ] at hb
    linarith

/-- C82. With equal multiplicities the sums of a crystal are complete. -/
theorem crystal_sums_equal_partial (std : SetBV ℝ) (t : Table ℝ) (st : ℕ → Site) (svs : List (Str × Int)) (rmax eps : ℝ)
    (m : Mask.State) (c : Crys) (hc : ExactCrystal c) (hS : SpaceGroup c.L c.ops) (k : ℕ) (hk : k < c.atoms.length)
    (hm : ∀ j, k < j → j < c.atoms.length → (equivPos c j).length = (equivPos c k).length)
    (gen : ℝ → Gen Bond) (hgen : IsCrystalGen c 0 (rmaxUsed std t svs rmax eps) (gen (rmaxUsed std t svs rmax eps))) :
    evalSums std t st svs rmax eps (fun i j => Mask.getPairMask m i j) c.atoms.length gen k =
      ∑ j ∈ Finset.range c.atoms.length, if Mask.getPairMask m k j = true then
        ((equivPos c j).map fun q => ∑ᶠ s : ℤ × ℤ × ℤ, neighbour std t st (rmaxUsed std t svs rmax eps) k j
          (V3.distance (moved c.L q s) ((equivPos c k).headD V3.zero))).sum else 0 := by
  rw [crystal_sums std t st svs rmax eps m c hc hS k hk gen hgen]
  refine Finset.sum_congr rfl fun j hj => ?_
  rw [Finset.mem_range] at hj
  congr 1
  by_cases hjk : j ≤ k
  · rw [if_pos hjk, one_mul]
  · rw [if_neg hjk, hm j (not_le.1 hjk) hj, div_self, one_mul]
    have := List.length_pos_iff.2 (equivPos_ne c hc.eps k hk)
    exact_mod_cast this.ne'

/-! ### The cut-off -/

/-- C82. The bonds left out because of the valence precision: a neighbour that `rmax` admits and `getRmaxUsed()` does not would
add less than the precision times its occupancy (for parameters that do not depend on the order of the atoms and a table
without an entry for two blank atoms). -/
theorem dropped_neighbours_partial (std : SetBV ℝ) (t : Table ℝ) (hb : NoBlank std t) (st : ℕ → Site) (cnt : ℕ) (svs : List (Str × Int))
    (hs : IsSymVals t st cnt svs) (rmax eps : ℝ) (he : 0 < eps) (k j : ℕ) (hk : k < cnt) (hj : j < cnt)
    (hl : lookupSymbols std t (st k).sym (st j).sym = lookupSymbols std t (st j).sym (st k).sym) (d : ℝ) :
    |neighbour std t st rmax k j d - neighbour std t st (rmaxUsed std t svs rmax eps) k j d| ≤ eps * |(st j).occ| ∧
    ((rmaxUsed std t svs rmax eps < d → d ≤ rmax → False) →
      neighbour std t st (rmaxUsed std t svs rmax eps) k j d = neighbour std t st rmax k j d) := by
  have hle : rmaxUsed std t svs rmax eps ≤ rmax := min_le_left _ _
  have hsame : (rmaxUsed std t svs rmax eps < d → d ≤ rmax → False) →
      neighbour std t st (rmaxUsed std t svs rmax eps) k j d = neighbour std t st rmax k j d := by
    intro h
    unfold neighbour
    by_cases h1 : 1 / 2 ^ 26 < d ∧ d ≤ rmax
    · have h2 : 1 / 2 ^ 26 < d ∧ d ≤ rmaxUsed std t svs rmax eps := ⟨h1.1, not_lt.1 fun h3 => h h3 h1.2⟩
      rw [if_pos h1, if_pos h2]
    · have h2 : ¬ (1 / 2 ^ 26 < d ∧ d ≤ rmaxUsed std t svs rmax eps) := fun h3 => h1 ⟨h3.1, h3.2.trans hle⟩
      rw [if_neg h1, if_neg h2]
  refine ⟨?_, hsame⟩
  by_cases hd : rmaxUsed std t svs rmax eps < d ∧ d ≤ rmax
  · have h2 : ¬ (1 / 2 ^ 26 < d ∧ d ≤ rmaxUsed std t svs rmax eps) := fun h3 => absurd h3.2 (not_le.2 hd.1)
    unfold neighbour
    rw [if_neg h2, sub_zero]
    have hR : rmaxFromPrecision std t svs eps < d := by
      have h3 := hd.1
      unfold rmaxUsed at h3
      rcases min_lt_iff.1 h3 with h | h
      · exact absurd hd.2 (not_le.2 h)
      · exact h
    have hlm : lookupSymbols std t (st (max k j)).sym (st (min k j)).sym =
        lookupSymbols std t (st (min k j)).sym (st (max k j)).sym := by
      rcases max_min_cases k j with ⟨h1, h2⟩ | ⟨h1, h2⟩ <;> rw [h1, h2]
      · exact hl
      · exact hl.symm
    have hmem : ∀ i < cnt, symval t (st i) ∈ svs := fun i hi => (hs.2 _).2 ⟨i, hi, rfl⟩
    have hv := cutoff_partial std t hb st svs (max k j) (min k j) (hmem _ (max_lt hk hj)) (hmem _ (lt_of_le_of_lt (min_le_left _ _) hk))
      hlm eps d he hR
    have hv0 : 0 ≤ pairVal std t st k j d := by
      unfold pairVal bondVal
      split
      · exact le_rfl
      · split
        · exact (Real.exp_pos _).le
        · exact le_rfl
    have hsg : |siteSign t st k| = 1 := by
      unfold siteSign
      split <;> norm_num
    split
    · rw [abs_mul, abs_mul, hsg, one_mul, abs_of_nonneg hv0]
      exact mul_le_mul_of_nonneg_right (le_of_lt hv) (abs_nonneg _)
    · rw [abs_zero]
      exact mul_nonneg he.le (abs_nonneg _)
  · rw [hsame (fun h1 h2 => hd ⟨h1, h2⟩), sub_self, abs_zero]
    exact mul_nonneg he.le (abs_nonneg _)

/-! ### Examples -/

open Verif.PDFCache (mirror mirror_apply idOp act act_id add_trip_zero mirrorOps mem_mirrorOps exCrys exCrys_exact exCrys_group exCrys_frac fracPos
  sites_exact orbit_eq crystalGen_exists periodicGen_exists)
open Verif.Crystal (unitCubic unitCubic_reachable unitCubic_cart unitCubic_frac unitCubic_small SymOp ModClose)

/-- Two sites in a unit cubic cell with a mirror plane: Ca on the plane (multiplicity 1) and F at x = 1/4 (multiplicity 2). -/
noncomputable def caf (L0 : Lat) : Crys :=
  ⟨[⟨V3.zero, M3.one⟩, ⟨⟨1 / 4, 0, 0⟩, M3.one⟩], unitCubic L0, mirrorOps, 5 / 10 ^ 5, false, []⟩

theorem caf_frac0 (L0 : Lat) : fracPos (caf L0) 0 = V3.zero := unitCubic_frac L0 _

theorem caf_frac1 (L0 : Lat) : fracPos (caf L0) 1 = ⟨1 / 4, 0, 0⟩ := unitCubic_frac L0 _

theorem act_zero (op : SymOp) (h : op ∈ mirrorOps) : act op V3.zero = V3.zero := by
  rcases (mem_mirrorOps op).1 h with rfl | rfl
  · exact act_id _
  · ext <;> simp [act, mirror_apply, V3.add, V3.zero]

theorem caf_exact (L0 : Lat) : ExactCrystal (caf L0) := by
  have h1 := exCrys_exact L0 mirrorOps M3.one mem_mirrorOps
  have hi : ∀ i, i < (caf L0).atoms.length → i = 0 ∨ i = 1 := by
    intro i hi
    have : i < 2 := hi
    omega
  have hf : fracPos (caf L0) 1 = fracPos (exCrys L0 mirrorOps M3.one) 0 := by rw [caf_frac1, exCrys_frac]
  refine ⟨h1.lat, h1.eps, h1.small, h1.ops, ?_, ?_⟩
  · intro i h o ho o' ho' hc
    rcases hi i h with rfl | rfl
    · rw [caf_frac0, act_zero o ho, act_zero o' ho']
      exact ⟨0, (add_trip_zero _).symm⟩
    · rw [hf] at hc ⊢
      exact h1.exact 0 Nat.zero_lt_one o ho o' ho' hc
  · intro i h op hop n t ht hn
    rcases hi i h with rfl | rfl
    · rw [caf_frac0, act_zero op hop] at ht
      have ht0 : t = 0 := by simpa [V3.zero] using ht
      subst ht0
      have hs : sqrtEps = 1 / 2 ^ 26 := rfl
      rw [hs] at hn
      have b1 : (n : ℝ) < 1 := by norm_num at hn ⊢; linarith [hn.1]
      have b2 : (0 : ℝ) < n := hn.2
      have d1 : n < 1 := by exact_mod_cast b1
      have d2 : 0 < n := by exact_mod_cast b2
      omega
    · rw [hf] at ht
      exact h1.clear 0 Nat.zero_lt_one op hop n t ht hn

theorem caf_mult (L0 : Lat) : (equivPos (caf L0) 0).length = 1 ∧ (equivPos (caf L0) 1).length = 2 := by
  have hc := caf_exact L0
  constructor
  · obtain ⟨reps, w, r1, r0, r2, r3, r4⟩ := sites_exact (caf L0) hc 0 Nat.two_pos
    have hlen : (equivPos (caf L0) 0).length = reps.length := by unfold equivPos; rw [r4]; simp
    rw [hlen]
    have hops : ∀ r ∈ reps, act r (fracPos (caf L0) 0) = V3.zero := fun r hr => by
      rw [caf_frac0]; exact act_zero r (r1.subset hr)
    cases reps with
    | nil => simp [caf, mirrorOps] at r0
    | cons a l =>
      cases l with
      | nil => rfl
      | cons b l =>
        exfalso
        rw [List.map_cons, List.map_cons, List.pairwise_cons] at r2
        apply r2.1 _ (List.mem_cons_self ..)
        rw [hops a (by simp), hops b (by simp)]
        refine ⟨0, ?_⟩
        have e : V3.distance ((caf L0).L.cartesian V3.zero) (V3.add ((caf L0).L.cartesian V3.zero) ((caf L0).L.cartesian (tripVec 0))) = 0 := by
          have hL : ∀ v, (caf L0).L.cartesian v = v := fun v => unitCubic_cart L0 v
          rw [hL, hL, add_trip_zero]
          unfold V3.distance V3.norm V3.sub V3.dot; simp
        rw [e]
        exact hc.eps
  · obtain ⟨reps, w, r1, r0, r2, r3, r4⟩ := sites_exact (caf L0) hc 1 Nat.one_lt_two
    have hlen : (equivPos (caf L0) 1).length = reps.length := by unfold equivPos; rw [r4]; simp
    rw [hlen]
    have hle : reps.length ≤ 2 := r1.length_le
    have a2 : act ⟨mirror, V3.zero⟩ ⟨1 / 4, 0, 0⟩ = ⟨-(1 / 4), 0, 0⟩ := by
      ext <;> simp [act, mirror_apply, V3.add, V3.zero]
    have hM : (⟨mirror, V3.zero⟩ : SymOp) ∈ reps := by
      obtain ⟨r, hr, hcl⟩ := r3 ⟨mirror, V3.zero⟩ ((mem_mirrorOps _).2 (Or.inr rfl))
      rcases (mem_mirrorOps r).1 (r1.subset hr) with rfl | rfl
      · obtain ⟨k, hk⟩ := hc.exact 1 Nat.one_lt_two idOp (r1.subset hr) ⟨mirror, V3.zero⟩ ((mem_mirrorOps _).2 (Or.inr rfl)) hcl
        rw [caf_frac1, act_id, a2] at hk
        have hx := congrArg V3.x hk
        simp only [V3.add, tripVec] at hx
        have h2 : ((2 * k.1 : ℤ) : ℝ) = ((1 : ℤ) : ℝ) := by push_cast; linarith
        have h3 : 2 * k.1 = 1 := by exact_mod_cast h2
        omega
      · exact hr
    have hne : (⟨mirror, V3.zero⟩ : SymOp) ≠ idOp := by
      intro h
      have h2 := a2
      rw [h, act_id] at h2
      have hx := congrArg V3.x h2
      norm_num at hx
    have hI : idOp ∈ reps := by
      cases reps with
      | nil => simp at hM
      | cons a l =>
        rw [List.head?_cons] at r0
        have : a = idOp := Option.some.inj r0
        rw [this]
        exact List.mem_cons_self ..
    cases reps with
    | nil => simp at hM
    | cons a l =>
      cases l with
      | nil =>
        exfalso
        rw [List.mem_singleton] at hM hI
        exact hne (hM.trans hI.symm)
      | cons b l => simp only [List.length_cons] at hle ⊢; omega

/-- C82 is not the bond valence sum for crystals with unequal multiplicities: the value of Ca, listed before F, has only half of
the valences of its bonds with F. -/
theorem crystal_sums_bug (L0 : Lat) (std : SetBV ℝ) (t : Table ℝ) (st : ℕ → Site) (svs : List (Str × Int)) (rmax eps : ℝ) (m : Mask.State)
    (hmask : ∀ i j : ℕ, Mask.getPairMask m i j = true)
    (gen : ℝ → Gen Bond) (hgen : IsCrystalGen (caf L0) 0 (rmaxUsed std t svs rmax eps) (gen (rmaxUsed std t svs rmax eps))) :
    let N : ℕ → ℝ := fun j => ((equivPos (caf L0) j).map fun q => ∑ᶠ s : ℤ × ℤ × ℤ, neighbour std t st (rmaxUsed std t svs rmax eps) 0 j
          (V3.distance (moved (caf L0).L q s) ((equivPos (caf L0) 0).headD V3.zero))).sum
    evalSums std t st svs rmax eps (fun i j => Mask.getPairMask m i j) 2 gen 0 = N 0 + N 1 / 2 := by
  intro N
  have h := crystal_sums std t st svs rmax eps m (caf L0) (caf_exact L0) (exCrys_group L0 _ mem_mirrorOps) 0 Nat.two_pos gen hgen
  have e : (caf L0).atoms.length = 2 := rfl
  rw [e, Finset.sum_range_succ, Finset.sum_range_one, if_pos (hmask 0 0), if_pos (hmask 0 1), (caf_mult L0).1, (caf_mult L0).2] at h
  rw [h]
  simp only [le_refl, if_true, one_mul]
  rw [if_neg (by decide)]
  push_cast
  ring

/-- With the usual parameters the bonds left out are not negligible: Ca has an F neighbour at distance 1/4. -/
theorem caf_neighbours :
    let st := fluoriteSites
    let svs : List (Str × Int) := [(['C', 'a'], 2), (['F'], -1)]
    let R := rmaxUsed fluoriteStd ⟨[], []⟩ svs 100 (1 / 10 ^ 5)
    IsSymVals ⟨[], []⟩ st 2 svs ∧ NoBlank fluoriteStd ⟨[], []⟩ ∧ 1 / 4 ≤ R ∧
      neighbour fluoriteStd ⟨[], []⟩ st R 0 1 (1 / 4) = Real.exp (7 / 4) := by
  intro st svs R
  have hR : 1 / 4 ≤ R := by
    have h1 : bpUsed fluoriteStd ⟨[], []⟩ svs = [(⟨['C', 'a'], 2, ['F'], -1⟩, ⟨2, 1, []⟩), (⟨[], 0, [], 0⟩, ⟨0, 0, []⟩)] := rfl
    have hlog : Real.log (1 / 10 ^ 5) < 0 := Real.log_neg (by norm_num) (by norm_num)
    have h2 : 1 / 4 ≤ rmaxFromPrecision fluoriteStd ⟨[], []⟩ svs (1 / 10 ^ 5) := by
      unfold rmaxFromPrecision
      rw [h1]
      simp only [List.foldl_cons, List.foldl_nil]
      refine le_max_of_le_left (le_max_of_le_right ?_)
      unfold bondvalenceToDistance
      linarith
    exact le_min (by norm_num) h2
  refine ⟨⟨by decide, ?_⟩, ⟨rfl, rfl⟩, hR, ?_⟩
  · intro x
    constructor
    · intro hx
      rcases List.mem_cons.1 hx with rfl | hx
      · exact ⟨0, by decide, rfl⟩
      · rw [List.mem_singleton] at hx
        subst hx
        exact ⟨1, by decide, rfl⟩
    · rintro ⟨i, hi, rfl⟩
      have : i = 0 ∨ i = 1 := by omega
      rcases this with rfl | rfl
      · exact List.mem_cons_self ..
      · exact List.mem_cons_of_mem _ (List.mem_cons_self ..)
  · have h1 : lookupSymbols fluoriteStd ⟨[], []⟩ (st 1).sym (st 0).sym = some (⟨['C', 'a'], 2, ['F'], -1⟩, ⟨2, 1, []⟩) := rfl
    have hs : siteSign ⟨[], []⟩ st 0 = 1 := by
      unfold siteSign
      rw [if_pos (by decide)]
    have ho : (st 1).occ = 1 := rfl
    have hp : (1 : ℝ) / 2 ^ 26 < 1 / 4 ∧ 1 / 4 ≤ R := ⟨by norm_num, hR⟩
    unfold neighbour
    rw [if_pos hp, hs, ho, one_mul, mul_one]
    unfold pairVal bondVal
    rw [show max 0 1 = 1 from rfl, show min 0 1 = 0 from rfl, h1]
    norm_num

/-- The hypotheses of `crystal_sums` and `periodic_sums` are met: the crystal above, and Na and Cl in a monoclinic cell. -/
example (L0 : Lat) (R : ℝ) :
    let L := create L0 2 3 4 90 60 90
    let xyz : Nat → V3 := fun i => if i = 0 then V3.zero else L.cartesian ⟨1 / 2, 1 / 2, 1 / 2⟩
    ExactCrystal (caf L0) ∧ SpaceGroup (caf L0).L (caf L0).ops ∧ (∃ gen, IsCrystalGen (caf L0) 0 R gen) ∧
      Reachable L ∧ (∀ i, Unsnapped L (xyz i)) ∧ ∃ gen, IsPeriodicGen L xyz 0 R gen := by
  intro L xyz
  obtain ⟨h1, h2, -⟩ := ex_monoclinic L0 ⟨⟨0, 0, 0⟩, ⟨0, 0, 0⟩, 0⟩
  exact ⟨caf_exact L0, exCrys_group L0 _ mem_mirrorOps, crystalGen_exists _ _ _, h1, h2, periodicGen_exists _ _ _ _⟩

end Verif.BV
