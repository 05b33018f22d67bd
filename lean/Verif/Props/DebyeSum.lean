import Verif.Model.DebyeSum
import Verif.Props.DebyeSetters
import Verif.Props.Debye
import Verif.Props.GeometryList
import Verif.Props.CrystalTensor
/-! C85: the Debye sum of finite structures, periodic structures and crystals. -/
set_option linter.unusedSectionVars false
namespace Verif.Debye
open Verif.Eval Verif.R3 Verif.Geo Verif.Setters Verif.PDFGrid Verif.PDFCache Verif.Crystal
open scoped BigOperators

/-! ### Specification -/

/-- The Debye term of a pair of atoms displaced by `v` with peak width (FWHM) `w`, without scattering factors:
exp(-σ²Q²/2) sin(Q r) / r with σ = w / (2 √(2 log 2)). -/
noncomputable def wave (w q : ℝ) (v : V3) : ℝ :=
  Real.exp (-((w / (2 * Real.sqrt (2 * Real.log 2))) ^ 2 * q ^ 2 / 2)) * (Real.sin (q * V3.norm v) / V3.norm v)

/-- The Debye double sum of the atoms of one cell with all atoms of the structure whose distance is between `lo` and `hi`, over the pairs
that the mask lets through: `f i` is the scattering factor of site `i` at `q`, `W i j v` the peak width for a bond `v` from site `i` to site `j`. -/
noncomputable def struSum (g : Geometry) (lo hi : ℝ) (f : ℕ → ℝ) (W : ℕ → ℕ → V3 → ℝ) (mask : ℕ → ℕ → Bool) (q : ℝ) : ℝ :=
  ∑ i ∈ Finset.range g.cnt, ∑ j ∈ Finset.range g.cnt, if mask i j = true then
    (g.mult i : ℝ) * (f i * f j * g.sum i j (cut lo hi fun v => wave (W i j v) q v)) else 0

/-- The number of bonds in range between pairs of sites, each pair taken once. -/
noncomputable def bondCount (g : Geometry) (lo hi : ℝ) (mask : ℕ → ℕ → Bool) : ℕ :=
  ∑ i ∈ Finset.range g.cnt, ∑ j ∈ Finset.range (i + 1), if mask i j = true then (vecs g lo hi i j).length else 0

/-- The factor of a site at `q`: that of its type times the occupancy. -/
noncomputable def siteFactor (lookup : String → ℝ → ℝ) (sites : List Site) (q : ℝ) (i : ℕ) : ℝ :=
  (sites[i]?.map fun s => lookup s.typ q * s.occ).getD 0

/-- The number of atoms in the cell, with their occupancies. -/
noncomputable def atomCount (sites : List Site) : ℝ := (sites.map fun s => s.occ * (s.mult : ℝ)).sum

/-- The average scattering factor. -/
noncomputable def meanFactor (lookup : String → ℝ → ℝ) (sites : List Site) (q : ℝ) : ℝ :=
  (sites.map fun s => lookup s.typ q * s.occ * (s.mult : ℝ)).sum / atomCount sites

/-- Widths are seen alike from both ends of the bonds: what is needed for a sum over half of the pairs. -/
def Reciprocal (g : Geometry) (lo hi : ℝ) (W : ℕ → ℕ → V3 → ℝ) : Prop :=
  ∀ (φ : ℝ → ℝ → ℝ) (i j : ℕ), i < g.cnt → j < g.cnt →
    (g.mult i : ℝ) * g.sum i j (cut lo hi fun v => φ (V3.norm v) (W i j v)) =
      (g.mult j : ℝ) * g.sum j i (cut lo hi fun v => φ (V3.norm v) (W j i v))

/-- The peak width model, asked for a bond of the structure (coincident atoms have none), gives the widths `W`. -/
def WidthIs (g : Geometry) (width : ℕ → ℕ → BondGen.Bond → ℝ) (W : ℕ → ℕ → V3 → ℝ) : Prop :=
  ∀ i < g.cnt, ∀ j < g.cnt, ∀ v, g.IsVec i j v → 1 / 2 ^ 26 < V3.norm v → width i j ⟨j, V3.add (g.anchor i) v, v, V3.norm v⟩ = W i j v

/-! ### Widths -/

/-- Widths that depend on the two sites, in either order, and the distance. -/
theorem reciprocal_distance (g : Geometry) (hok : g.Ok) (lo hi : ℝ) (ω : ℕ → ℕ → ℝ → ℝ) (hω : ∀ i j d, ω i j d = ω j i d) :
    Reciprocal g lo hi fun i j v => ω i j (V3.norm v) := by
  intro φ i j hi' hj
  have h := balance g hok lo hi (fun d => φ d (ω i j d)) i j hi' hj
  simp only [hω j i]
  exact h

/-- Widths of bonds of finite and periodic structures that are the same when seen from the other end. -/
theorem reciprocal_even (g : Geometry) (hg : match g with | .crystal _ => False | _ => True) (lo hi : ℝ) (W : ℕ → ℕ → V3 → ℝ)
    (hW : ∀ i j v, W i j v = W j i (V3.sub V3.zero v)) : Reciprocal g lo hi W := by
  intro φ i j hi' hj
  cases g with
  | crystal c => exact hg.elim
  | cluster n pos =>
    simp only [Geometry.mult, Geometry.sum]
    congr 1
    have e : V3.norm (V3.sub (pos j) (pos i)) = V3.norm (V3.sub (pos i) (pos j)) := distance_comm _ _
    have e2 : W i j (V3.sub (pos j) (pos i)) = W j i (V3.sub (pos i) (pos j)) := by
      rw [hW i j]
      congr 1
      ext <;> simp [V3.sub, V3.zero]
    unfold cut
    dsimp only
    rw [e, e2]
  | periodic n L xyz =>
    simp only [Geometry.mult, Geometry.sum]
    congr 1
    rw [← finsum_comp_equiv (Equiv.neg (ℤ × ℤ × ℤ)) (f := fun s => cut lo hi (fun v => φ (V3.norm v) (W i j v)) (imageVec L xyz i j s))]
    refine finsum_congr fun s => ?_
    have e0 : V3.sub V3.zero (imageVec L xyz i j (-s)) = imageVec L xyz j i s := by
      unfold imageVec shift
      ext <;> simp [V3.sub, V3.add, V3.zero, Lattice.Lat.cartesian, Periodic.tripVec, M3.vecMul, V3.dot, M3.c0, M3.c1, M3.c2] <;> ring
    have e : V3.norm (imageVec L xyz i j (-s)) = V3.norm (imageVec L xyz j i s) := by
      rw [← PDFCache.norm_neg, e0]
    rw [Equiv.neg_apply]
    unfold cut
    dsimp only
    rw [e, hW i j, e0]

/-- Widths of bonds of crystals for displacements that are carried along by the symmetry operations. -/
theorem reciprocal_crystal (c : Crys) (hc : ExactCrystal c) (lo hi : ℝ) (V : ℕ → ℕ → V3 → V3 → ℝ)
    (hV : CrystalSym c.L c.atoms.length (equivPos c) V) :
    Reciprocal (.crystal c) lo hi fun i j v => V i j ((equivPos c i).headD V3.zero) (V3.add ((equivPos c i).headD V3.zero) v) := by
  intro φ i j h1 h2
  have hadd : ∀ a x : V3, V3.add a (V3.sub x a) = x := by intro a x; ext <;> simp [V3.add, V3.sub]
  have hfin : ∀ x y, x < c.atoms.length → y < c.atoms.length → ∀ p ∈ equivPos c x,
      (Orbit c.L (equivPos c y) ∩ Function.support fun z =>
        if InRange lo hi (V3.distance z p) then φ (V3.distance z p) (V x y p z) else 0).Finite := by
    intro x y hx hy p hp
    obtain ⟨gen, hgen⟩ := crystalGen_exists c lo hi
    obtain ⟨ts, hnd, hcov, hspec⟩ := crystal_genSpec c hc.lat hc.eps hc.ops lo hi gen hgen
    refine orbit_finite c.L (equivPos c y) ts _ fun q hq s hs => ?_
    refine hcov x y p q s hx hy hp hq ?_
    by_contra hn
    exact hs (if_neg hn)
  have hb := orbit_balance c.L hc.lat c.atoms.length (equivPos c) V hV i j h1 h2
    (fun d w => if InRange lo hi d then φ d w else 0) (hfin i j h1 h2) (hfin j i h2 h1)
  have e : ∀ x y, (Geometry.crystal c).sum x y (cut lo hi fun v => φ (V3.norm v)
        (V x y ((equivPos c x).headD V3.zero) (V3.add ((equivPos c x).headD V3.zero) v))) =
      orbitSum c.L (equivPos c y) fun z =>
        if InRange lo hi (V3.distance z ((equivPos c x).headD V3.zero)) then
          φ (V3.distance z ((equivPos c x).headD V3.zero)) (V x y ((equivPos c x).headD V3.zero) z) else 0 := by
    intro x y
    show ((equivPos c y).map fun q => ∑ᶠ s : ℤ × ℤ × ℤ, cut lo hi _ (V3.sub (moved c.L q s) ((equivPos c x).headD V3.zero))).sum = _
    unfold orbitSum
    refine map_sub_sum _ _ _ fun q _ => finsum_congr fun s => ?_
    unfold cut
    dsimp only
    rw [hadd]
    rfl
  rw [e, e]
  exact hb

/-! ### The bonds -/

/-- The bonds that `addPairContribution` sees, and nothing for sites that do not exist. -/
noncomputable def seenBonds (g : Geometry) (bonds : ℕ → ℕ → List BondGen.Bond) (mult : ℕ → ℕ) (width : ℕ → ℕ → BondGen.Bond → ℝ)
    (i j : ℕ) : List Bond :=
  if i < g.cnt ∧ j < g.cnt then (bonds i j).map fun b => ⟨b.distance, width i j b, mult i⟩ else []

theorem readGen_spec (g : Geometry) (lo hi : ℝ) (gen : Gen BondGen.Bond) (bonds : ℕ → ℕ → List BondGen.Bond)
    (hd : Delivers g lo hi gen bonds) (mult : ℕ → ℕ) (width : ℕ → ℕ → BondGen.Bond → ℝ) :
    ∃ gen1, GenSpec gen1 (seenBonds g bonds mult width) ∧ ∀ (rule full : Bool) (use : ℕ → ℕ → Bool) (n : ℤ),
      basicTrace rule (readGen mult width gen) full use g.cnt n 1 = basicTrace rule gen1 full use g.cnt n 1 := by
  obtain ⟨g0, hs, he⟩ := hd.spec
  refine ⟨fun i sel => if i < g.cnt ∧ ∀ j ∈ sel, j < g.cnt then readGen mult width gen i sel else
    sel.flatMap fun j => (seenBonds g bonds mult width i j).map fun b => (j, b), ?_, ?_⟩
  · intro i sel
    by_cases h : i < g.cnt ∧ ∀ j ∈ sel, j < g.cnt
    · simp only [if_pos h]
      unfold readGen
      rw [he i sel h.1 h.2]
      refine ((hs i sel).map _).trans (List.Perm.of_eq ?_)
      rw [List.map_flatMap]
      refine List.flatMap_congr fun j hj => ?_
      have hij : i < g.cnt ∧ j < g.cnt := ⟨h.1, h.2 j hj⟩
      unfold seenBonds
      rw [if_pos hij, List.map_map, List.map_map]
      rfl
    · simp only [if_neg h]
      exact List.Perm.refl _
  · intro rule full use n
    unfold basicTrace
    simp only
    rw [basicLoop_congr (readGen mult width gen) _ _ _ _ _ _ _ ?_ _ (fun i hi => List.mem_range.1 hi)]
    intro i sel h1 h2
    exact (if_pos ⟨h1, h2⟩).symm

theorem seen_sum (g : Geometry) (lo hi : ℝ) (gen : Gen BondGen.Bond) (bonds : ℕ → ℕ → List BondGen.Bond)
    (hd : Delivers g lo hi gen bonds) (mult : ℕ → ℕ) (width : ℕ → ℕ → BondGen.Bond → ℝ) (W : ℕ → ℕ → V3 → ℝ)
    (hw : ∀ i < g.cnt, ∀ j < g.cnt, ∀ b ∈ bonds i j, width i j b = W i j b.r01) (φ : ℝ → ℝ → ℝ) (i j : ℕ) (hi' : i < g.cnt) (hj : j < g.cnt) :
    ((seenBonds g bonds mult width i j).map fun b => φ b.dist b.fwhm).sum =
      g.sum i j (cut lo hi fun v => φ (V3.norm v) (W i j v)) := by
  have hij : i < g.cnt ∧ j < g.cnt := ⟨hi', hj⟩
  unfold seenBonds
  rw [if_pos hij, List.map_map, ← hd.sum i hi' j hj]
  congr 1
  refine List.map_congr_left fun b hb => ?_
  show φ b.distance (width i j b) = φ (V3.norm b.r01) (W i j b.r01)
  rw [hd.dist i j b hb, hw i hi' j hj b hb]

theorem seen_mult (g : Geometry) (bonds : ℕ → ℕ → List BondGen.Bond) (mult : ℕ → ℕ) (width : ℕ → ℕ → BondGen.Bond → ℝ) (i j : ℕ)
    (b : Bond) (hb : b ∈ seenBonds g bonds mult width i j) : b.mult = mult i := by
  unfold seenBonds at hb
  split at hb
  · obtain ⟨b', -, rfl⟩ := List.mem_map.1 hb; rfl
  · simp at hb

theorem seen_mult_sum (g : Geometry) (bonds : ℕ → ℕ → List BondGen.Bond) (mult : ℕ → ℕ) (width : ℕ → ℕ → BondGen.Bond → ℝ)
    (φ : ℝ → ℝ → ℝ) (i j : ℕ) :
    ((seenBonds g bonds mult width i j).map fun b => (b.mult : ℝ) * φ b.dist b.fwhm).sum =
      (mult i : ℝ) * ((seenBonds g bonds mult width i j).map fun b => φ b.dist b.fwhm).sum := by
  rw [← List.sum_map_mul_left]
  congr 1
  refine List.map_congr_left fun b hb => ?_
  rw [seen_mult g bonds mult width i j b hb]

theorem seen_symmetric (g : Geometry) (lo hi : ℝ) (gen : Gen BondGen.Bond) (bonds : ℕ → ℕ → List BondGen.Bond)
    (hd : Delivers g lo hi gen bonds) (mult : ℕ → ℕ) (hm : ∀ i < g.cnt, mult i = g.mult i) (width : ℕ → ℕ → BondGen.Bond → ℝ)
    (W : ℕ → ℕ → V3 → ℝ) (hw : ∀ i < g.cnt, ∀ j < g.cnt, ∀ b ∈ bonds i j, width i j b = W i j b.r01)
    (hW : Reciprocal g lo hi W) : SymmetricBonds (seenBonds g bonds mult width) := by
  intro i j φ
  rw [seen_mult_sum, seen_mult_sum]
  by_cases hij : i < g.cnt ∧ j < g.cnt
  · rw [seen_sum g lo hi gen bonds hd mult width W hw φ i j hij.1 hij.2, seen_sum g lo hi gen bonds hd mult width W hw φ j i hij.2 hij.1,
      hm i hij.1, hm j hij.2]
    exact hW φ i j hij.1 hij.2
  · have e1 : seenBonds g bonds mult width i j = [] := if_neg hij
    have e2 : seenBonds g bonds mult width j i = [] := if_neg fun h => hij ⟨h.2, h.1⟩
    rw [e1, e2]
    simp

theorem seen_debye (g : Geometry) (lo hi : ℝ) (gen : Gen BondGen.Bond) (bonds : ℕ → ℕ → List BondGen.Bond)
    (hd : Delivers g lo hi gen bonds) (mult : ℕ → ℕ) (hm : ∀ i < g.cnt, mult i = g.mult i) (width : ℕ → ℕ → BondGen.Bond → ℝ)
    (W : ℕ → ℕ → V3 → ℝ) (hw : ∀ i < g.cnt, ∀ j < g.cnt, ∀ b ∈ bonds i j, width i j b = W i j b.r01) (f : ℕ → ℝ) (mask : ℕ → ℕ → Bool) (q : ℝ) :
    debyeSum f (seenBonds g bonds mult width) mask g.cnt q = struSum g lo hi f W mask q := by
  unfold debyeSum struSum
  refine Finset.sum_congr rfl fun i hi' => Finset.sum_congr rfl fun j hj => ?_
  rw [Finset.mem_range] at hi' hj
  congr 1
  have e : ∀ b ∈ seenBonds g bonds mult width i j, debyeBond (f i) (f j) b q =
      (b.mult : ℝ) * (fun d w => f i * f j * (if |d| ≤ eps then 0 else
        Real.exp (-((w / (2 * Real.sqrt (2 * Real.log 2))) ^ 2 * q ^ 2 / 2)) * (Real.sin (q * d) / d))) b.dist b.fwhm := by
    intro b _
    unfold debyeBond debyeTerm
    dsimp only
    split
    · simp
    · ring
  rw [List.map_congr_left e, seen_mult_sum g bonds mult width (fun d w => f i * f j * (if |d| ≤ eps then 0 else
        Real.exp (-((w / (2 * Real.sqrt (2 * Real.log 2))) ^ 2 * q ^ 2 / 2)) * (Real.sin (q * d) / d))), hm i hi']
  congr 1
  refine (seen_sum g lo hi gen bonds hd mult width W hw (fun d w => f i * f j * (if |d| ≤ eps then 0 else
        Real.exp (-((w / (2 * Real.sqrt (2 * Real.log 2))) ^ 2 * q ^ 2 / 2)) * (Real.sin (q * d) / d))) i j hi' hj).trans ?_
  have e2 : ∀ F : V3 → ℝ, g.sum i j (fun v => (f i * f j) * F v) = f i * f j * g.sum i j F := by
    intro F
    have h : ∀ (a : ℝ) (f : ℤ × ℤ × ℤ → ℝ), (∑ᶠ s, a * f s) = a * ∑ᶠ s, f s := fun a f => (smul_finsum a f).symm
    cases g with
    | cluster n pos => rfl
    | periodic n L xyz => exact h _ _
    | crystal c =>
      simp only [Geometry.sum]
      rw [← List.sum_map_mul_left]
      congr 1
      refine List.map_congr_left fun q _ => h _ _
  rw [← e2]
  congr 1
  funext v
  unfold cut wave
  by_cases hr : InRange lo hi (V3.norm v)
  · rw [if_pos hr, if_pos hr]
    have : ¬ |V3.norm v| ≤ eps := by
      rw [abs_of_nonneg (V3.norm_nonneg v), not_le]
      exact hr.2.2
    beta_reduce
    rw [if_neg this]
  · rw [if_neg hr, if_neg hr, mul_zero]

/-- The number of calls of `addPairContribution`. -/
theorem trace_length (g : Geometry) (hok : g.Ok) (lo hi : ℝ) (gen : Gen BondGen.Bond) (bonds : ℕ → ℕ → List BondGen.Bond)
    (hd : Delivers g lo hi gen bonds) (mult : ℕ → ℕ) (width : ℕ → ℕ → BondGen.Bond → ℝ) (mask : ℕ → ℕ → Bool) :
    (basicTrace true (readGen mult width gen) false mask g.cnt 0 1).length = bondCount g lo hi mask := by
  obtain ⟨gen1, hs, he⟩ := readGen_spec g lo hi gen bonds hd mult width
  rw [he, (basic_serial_spec true gen1 _ hs false mask g.cnt 0).length_eq]
  have hsum : ∀ (f : ℕ → ℕ) (n : ℕ), ((List.range n).map f).sum = ∑ i ∈ Finset.range n, f i := by
    intro f n
    induction n with
    | zero => rfl
    | succ n ih => rw [Finset.sum_range_succ, List.range_succ, List.map_append, List.sum_append, ih]; simp
  unfold specContribs bondCount
  rw [List.length_flatMap, hsum]
  refine Finset.sum_congr rfl fun i hi' => ?_
  rw [Finset.mem_range] at hi'
  rw [List.length_flatMap, hsum]
  have e : Finset.range (i + 1) = (Finset.range g.cnt).filter fun j => j ≤ i := by
    ext j
    simp only [Finset.mem_range, Finset.mem_filter]
    omega
  rw [e, Finset.sum_filter]
  refine Finset.sum_congr rfl fun j hj => ?_
  rw [Finset.mem_range] at hj
  have hl : (seenBonds g bonds mult width i j).length = (vecs g lo hi i j).length := by
    have hij : i < g.cnt ∧ j < g.cnt := ⟨hi', hj⟩
    unfold seenBonds
    rw [if_pos hij, ← (delivers_vecs hok hd i j hi' hj).length_eq, List.length_map, List.length_map]
  by_cases hji : j ≤ i
  · by_cases hm : mask i j = true
    · have hp : (false = true ∨ j ≤ i) ∧ mask i j = true := ⟨Or.inr hji, hm⟩
      rw [if_pos hp, if_pos hji, if_pos hm, List.length_map, hl]
    · have hp : ¬ ((false = true ∨ j ≤ i) ∧ mask i j = true) := fun x => hm x.2
      rw [if_neg hp, if_pos hji, if_neg hm]; rfl
  · have hp : ¬ ((false = true ∨ j ≤ i) ∧ mask i j = true) := fun x => hji (x.1.resolve_left (by decide))
    rw [if_neg hp, if_neg hji]; rfl

theorem width_bonds (g : Geometry) (lo hi : ℝ) (gen : Gen BondGen.Bond) (bonds : ℕ → ℕ → List BondGen.Bond)
    (hd : Delivers g lo hi gen bonds) (width : ℕ → ℕ → BondGen.Bond → ℝ) (W : ℕ → ℕ → V3 → ℝ) (hw : WidthIs g width W) :
    ∀ i < g.cnt, ∀ j < g.cnt, ∀ b ∈ bonds i j, width i j b = W i j b.r01 := by
  intro i hi' j hj b hb
  obtain ⟨hv, hrange⟩ := (hd.mem i hi' j hj b.r01).1 ⟨b, hb, rfl⟩
  have h := hw i hi' j hj b.r01 hv hrange.2.2
  have e : b = ⟨j, V3.add (g.anchor i) b.r01, b.r01, V3.norm b.r01⟩ := by
    obtain ⟨h1, h2⟩ := hd.ends i j b hb
    have h3 := hd.dist i j b hb
    have h4 : V3.add (g.anchor i) b.r01 = b.r1 := by
      rw [h2]
      ext <;> simp [V3.add, V3.sub]
    rw [h4, ← h3, ← h1]
  rw [← e] at h
  exact h

/-! ### Values -/

theorem good_par {d : D} (h : d.Good) : d.q.Ok ∧ d.q.lo = 0 := by
  have hok : d.q.Ok := ⟨by rw [h.sumfrom], h.qmax, h.qstep⟩
  refine ⟨hok, ?_⟩
  have h0 := hok.lo_nonneg
  unfold QPar.lo qminSteps at h0 ⊢
  have hq : ¬ d.q.qstep ≤ 0 := not_le.2 (lt_trans (by positivity) h.qstep)
  rw [if_neg hq] at h0 ⊢
  rw [h.sumfrom, zero_div, Int.ceil_zero] at h0 ⊢
  simp only at h0 ⊢
  split at h0
  · omega
  · rename_i hn; rw [if_neg hn]

theorem multOf_eq (g : Geometry) (sites : List Site) (hcnt : sites.length = g.cnt)
    (hmult : ∀ i s, sites[i]? = some s → s.mult = g.mult i) : ∀ i < g.cnt, multOf sites i = g.mult i := by
  intro i h
  have hi : i < sites.length := by omega
  unfold multOf
  rw [List.getElem?_eq_getElem hi]
  exact hmult i _ (List.getElem?_eq_getElem hi)

theorem siteFactor_eq (lookup : String → ℝ → ℝ) (sites : List Site) (q : ℝ) : (fun i => sfPDF lookup sites i q) = siteFactor lookup sites q := by
  funext i
  unfold sfPDF siteFactor
  cases h : sites[i]? <;> rfl

/-- The stored value: Debye's double sum over the structure, up to the precision for every bond. -/
theorem value_error (lookup : String → ℝ → ℝ) (hdec : ∀ t (q q' : ℝ), 0 ≤ q → q ≤ q' → |lookup t q'| ≤ |lookup t q|)
    (sites : List Site) (hu : UniformOccupancy sites) (g : Geometry) (hok : g.Ok) (hcnt : sites.length = g.cnt)
    (hmult : ∀ i s, sites[i]? = some s → s.mult = g.mult i) (width : ℕ → ℕ → BondGen.Bond → ℝ) (W : ℕ → ℕ → V3 → ℝ)
    (hw : WidthIs g width W) (mask : ℕ → ℕ → Bool) (hmask : ∀ i j, mask i j = mask j i) (d : D) (hg : d.Good) (hprec : 0 ≤ d.q.prec)
    (gen : ℝ → ℝ → Gen BondGen.Bond) (hgen : g.IsGen d.rcalclo d.rcalchi (gen d.rcalclo d.rcalchi))
    (hW : Reciprocal g d.rcalclo d.rcalchi W) (k : ℕ) (hk : (k : ℤ) < d.q.hi) :
    ∃ y, (evalStru lookup sites width mask gen d)[k]? = some y ∧
      |y - struSum g d.rcalclo d.rcalchi (siteFactor lookup sites ((k : ℝ) * d.q.qstep)) W mask ((k : ℝ) * d.q.qstep)| ≤
        d.q.prec * (bondCount g d.rcalclo d.rcalchi mask : ℝ) := by
  obtain ⟨bonds, hd⟩ := delivers g hok _ _ _ hgen
  have hm := multOf_eq g sites hcnt hmult
  have hwb := width_bonds g _ _ _ bonds hd width W hw
  obtain ⟨gen1, hs, he⟩ := readGen_spec g _ _ _ bonds hd (multOf sites) width
  obtain ⟨hq, hlo⟩ := good_par hg
  have hsym := seen_symmetric g _ _ _ bonds hd (multOf sites) hm width W hwb hW
  obtain ⟨y, h1, h2⟩ := debye_pdf_error_partial d.q hq hprec lookup hdec sites hu true gen1 _ hs false mask (fun _ => ⟨hsym, hmask⟩) k
    (by rw [hlo]; omega) hk
  refine ⟨y, ?_, ?_⟩
  · unfold evalStru
    rw [hcnt, he, ← hcnt]
    exact h1
  · rw [hcnt, ← he, trace_length g hok _ _ _ bonds hd, seen_debye g _ _ _ bonds hd (multOf sites) hm width W hwb, siteFactor_eq,
      mul_comm d.q.qstep] at h2
    exact h2

/-- The stored value with a negative precision. -/
theorem value_exact (lookup : String → ℝ → ℝ)
    (sites : List Site) (hu : UniformOccupancy sites) (g : Geometry) (hok : g.Ok) (hcnt : sites.length = g.cnt)
    (hmult : ∀ i s, sites[i]? = some s → s.mult = g.mult i) (width : ℕ → ℕ → BondGen.Bond → ℝ) (W : ℕ → ℕ → V3 → ℝ)
    (hw : WidthIs g width W) (mask : ℕ → ℕ → Bool) (hmask : ∀ i j, mask i j = mask j i) (d : D) (hg : d.Good) (hprec : d.q.prec < 0)
    (gen : ℝ → ℝ → Gen BondGen.Bond) (hgen : g.IsGen d.rcalclo d.rcalchi (gen d.rcalclo d.rcalchi))
    (hW : Reciprocal g d.rcalclo d.rcalchi W) (k : ℕ) (hk : (k : ℤ) < d.q.hi) :
    (evalStru lookup sites width mask gen d)[k]? =
      some (struSum g d.rcalclo d.rcalchi (siteFactor lookup sites ((k : ℝ) * d.q.qstep)) W mask ((k : ℝ) * d.q.qstep)) := by
  obtain ⟨bonds, hd⟩ := delivers g hok _ _ _ hgen
  have hm := multOf_eq g sites hcnt hmult
  have hwb := width_bonds g _ _ _ bonds hd width W hw
  obtain ⟨gen1, hs, he⟩ := readGen_spec g _ _ _ bonds hd (multOf sites) width
  obtain ⟨hq, hlo⟩ := good_par hg
  have hsym := seen_symmetric g _ _ _ bonds hd (multOf sites) hm width W hwb hW
  unfold evalStru
  rw [hcnt, he, debye_exact d.q hq hprec _ true gen1 _ hs false mask (fun _ => ⟨hsym, hmask⟩) g.cnt k (by rw [hlo]; omega) hk,
    seen_debye g _ _ _ bonds hd (multOf sites) hm width W hwb]
  congr 1
  unfold struSum
  refine Finset.sum_congr rfl fun i hi' => Finset.sum_congr rfl fun j hj => ?_
  rw [Finset.mem_range] at hi' hj
  have hsf : ∀ i < g.cnt, (cacheOf d.q (sfPDF lookup sites) sites).sf i k = siteFactor lookup sites ((k : ℝ) * d.q.qstep) i := by
    intro i h
    have hi : i < sites.length := by omega
    have hsi := List.getElem?_eq_getElem hi
    unfold Cache.sf
    have hl : d.q.lo ≤ (k : ℤ) := by rw [hlo]; omega
    rw [sf_occupancy_partial d.q hq lookup sites hu i sites[i] hsi k hk, if_pos hl]
    unfold siteFactor
    rw [hsi, mul_comm d.q.qstep]
    rfl
  beta_reduce
  rw [hsf i hi', hsf j hj]

/-- The average that `getF` divides by. -/
theorem mean_eq (lookup : String → ℝ → ℝ) (sites : List Site) (hu : UniformOccupancy sites) (d : D) (hg : d.Good) (k : ℕ)
    (hk : (k : ℤ) < d.q.hi) :
    ((sites.zipIdx).map fun si => (cacheOf d.q (sfPDF lookup sites) sites).sf si.2 k * (si.1.mult : ℝ)).sum / totalOccupancy sites =
      meanFactor lookup sites ((k : ℝ) * d.q.qstep) := by
  obtain ⟨hq, hlo⟩ := good_par hg
  unfold meanFactor atomCount
  rw [totalOccupancy_eq]
  congr 1
  have e : ∀ si ∈ sites.zipIdx, (cacheOf d.q (sfPDF lookup sites) sites).sf si.2 k * (si.1.mult : ℝ) =
      (fun s : Site => lookup s.typ ((k : ℝ) * d.q.qstep) * s.occ * (s.mult : ℝ)) si.1 := by
    rintro ⟨s, i⟩ hs
    have hsi : sites[i]? = some s := List.mem_zipIdx_iff_getElem?.1 hs
    unfold Cache.sf
    have hl : d.q.lo ≤ (k : ℤ) := by rw [hlo]; omega
    rw [sf_occupancy_partial d.q hq lookup sites hu i s hsi k hk, if_pos hl, mul_comm d.q.qstep]
    rfl
  rw [List.map_congr_left e]
  show (List.map ((fun s : Site => lookup s.typ ((k : ℝ) * d.q.qstep) * s.occ * (s.mult : ℝ)) ∘ Prod.fst) sites.zipIdx).sum = _
  rw [← List.map_map, List.zipIdx_map_fst]

/-- The evaluation keeps the precision and leaves valid parameters. -/
theorem eval_parts (lookup : String → ℝ → ℝ) (sites : List Site) (width : ℕ → ℕ → BondGen.Bond → ℝ) (mask : ℕ → ℕ → Bool)
    (gen : ℝ → ℝ → Gen BondGen.Bond) (tails : ℝ → ℝ → ℝ) (ht : ∀ a b, 0 ≤ tails a b) (d : D) (hg : d.Good) (d' : D) (v : List ℝ)
    (h : eval lookup sites width mask gen tails d = .ok (d', v)) :
    dstep tails d .reset = .ok d' ∧ v = evalStru lookup sites width mask gen d' ∧ d'.Good ∧ d'.q.prec = d.q.prec := by
  unfold eval at h
  cases hr : dstep tails d .reset with
  | error e => rw [hr] at h; cases h
  | ok e =>
    rw [hr] at h
    cases h
    have hgood := d_good_step tails ht d hg .reset
    rw [hr] at hgood
    obtain ⟨-, -, -, -, -, h6, -⟩ := reset_parts tails d d' hr
    exact ⟨rfl, rfl, hgood, by rw [h6]⟩

/-- C85 (partial). `getF()` after `eval` of a finite structure, a periodic structure or a crystal: at every Q step below qmax the Debye
double sum of the atoms of the cell with all atoms of the infinite structure in the extended range, divided by N⟨f⟩², up to the Debye
precision for every bond.  Missing: atom types with different occupancies (`sf_occupancy_bug`) and factors that grow with Q
(`premature_break`). -/
theorem debye_F_partial (lookup : String → ℝ → ℝ) (hdec : ∀ t (q q' : ℝ), 0 ≤ q → q ≤ q' → |lookup t q'| ≤ |lookup t q|)
    (sites : List Site) (hu : UniformOccupancy sites) (hocc : 1 / 2 ^ 26 < atomCount sites) (g : Geometry) (hok : g.Ok)
    (hcnt : sites.length = g.cnt) (hmult : ∀ i s, sites[i]? = some s → s.mult = g.mult i)
    (width : ℕ → ℕ → BondGen.Bond → ℝ) (W : ℕ → ℕ → V3 → ℝ) (hw : WidthIs g width W) (hW : ∀ lo hi, Reciprocal g lo hi W)
    (mask : ℕ → ℕ → Bool) (hmask : ∀ i j, mask i j = mask j i)
    (gen : ℝ → ℝ → Gen BondGen.Bond) (hgen : ∀ lo hi, g.IsGen lo hi (gen lo hi))
    (tails : ℝ → ℝ → ℝ) (ht : ∀ a b, 0 ≤ tails a b) (d : D) (hg : d.Good) (hprec : 0 ≤ d.q.prec) (d' : D) (v : List ℝ)
    (h : eval lookup sites width mask gen tails d = .ok (d', v)) :
    ∃ F, getFStru lookup sites d' v = some F ∧ F.length = ⌈d'.q.qmax / d'.q.qstep⌉.toNat ∧ ∀ k < F.length,
      let q := (k : ℝ) * d'.q.qstep
      let n := atomCount sites * meanFactor lookup sites q ^ 2
      ∃ y, F[k]? = some y ∧ (meanFactor lookup sites q = 0 → y = 0) ∧ (meanFactor lookup sites q ≠ 0 →
        |y - struSum g d'.rcalclo d'.rcalchi (siteFactor lookup sites q) W mask q / n| ≤
          d.q.prec * (bondCount g d'.rcalclo d'.rcalchi mask : ℝ) / n) := by
  obtain ⟨-, rfl, hg', hp⟩ := eval_parts lookup sites width mask gen tails ht d hg d' v h
  obtain ⟨hq, hlo⟩ := good_par hg'
  have hqs : ¬ d'.q.qstep ≤ 0 := not_le.2 (lt_trans (by positivity) hg'.qstep)
  have hhi : d'.q.hi = ⌈d'.q.qmax / d'.q.qstep⌉ := by
    unfold QPar.hi qmaxSteps
    rw [if_neg hqs]
  have htot : totalOccupancy sites = atomCount sites := totalOccupancy_eq sites
  obtain ⟨F, h1, h2, h3⟩ := getF_normalized d'.q hq (sfPDF lookup sites) sites
    (basicTrace true (readGen (multOf sites) width (gen d'.rcalclo d'.rcalchi)) false mask sites.length 0 1) (by rw [htot]; exact hocc)
  refine ⟨F, h1, by rw [h2, hhi], fun k hk => ?_⟩
  have hk' : (k : ℤ) < d'.q.hi := by omega
  have h4 := h3 k (by rw [hlo]; omega) hk'
  dsimp only at h4 ⊢
  rw [mean_eq lookup sites hu d' hg' k hk', htot] at h4
  refine ⟨_, h4, fun hm => if_pos hm, fun hm => ?_⟩
  rw [if_neg hm]
  obtain ⟨y, h5, h6⟩ := value_error lookup hdec sites hu g hok hcnt hmult width W hw mask hmask d' hg' (by rw [hp]; exact hprec) gen (hgen _ _)
    (hW _ _) k hk'
  have hy : (value d'.q (cacheOf d'.q (sfPDF lookup sites) sites)
      (basicTrace true (readGen (multOf sites) width (gen d'.rcalclo d'.rcalchi)) false mask sites.length 0 1)).getD k 0 = y := by
    unfold evalStru at h5
    rw [List.getD_eq_getElem?_getD, h5, Option.getD_some]
  rw [hy, mul_comm (meanFactor lookup sites _ ^ 2), ← sub_div, abs_div]
  have hN : 0 < atomCount sites := lt_trans (by positivity) hocc
  have hn : 0 < atomCount sites * meanFactor lookup sites ((k : ℝ) * d'.q.qstep) ^ 2 := mul_pos hN (by positivity)
  rw [abs_of_pos hn, ← hp]
  gcongr

/-- C85 (partial). With a negative precision the result is exact, whatever the factors. -/
theorem debye_F_exact_partial (lookup : String → ℝ → ℝ)
    (sites : List Site) (hu : UniformOccupancy sites) (hocc : 1 / 2 ^ 26 < atomCount sites) (g : Geometry) (hok : g.Ok)
    (hcnt : sites.length = g.cnt) (hmult : ∀ i s, sites[i]? = some s → s.mult = g.mult i)
    (width : ℕ → ℕ → BondGen.Bond → ℝ) (W : ℕ → ℕ → V3 → ℝ) (hw : WidthIs g width W) (hW : ∀ lo hi, Reciprocal g lo hi W)
    (mask : ℕ → ℕ → Bool) (hmask : ∀ i j, mask i j = mask j i)
    (gen : ℝ → ℝ → Gen BondGen.Bond) (hgen : ∀ lo hi, g.IsGen lo hi (gen lo hi))
    (tails : ℝ → ℝ → ℝ) (ht : ∀ a b, 0 ≤ tails a b) (d : D) (hg : d.Good) (hprec : d.q.prec < 0) (d' : D) (v : List ℝ)
    (h : eval lookup sites width mask gen tails d = .ok (d', v)) :
    ∃ F, getFStru lookup sites d' v = some F ∧ F.length = ⌈d'.q.qmax / d'.q.qstep⌉.toNat ∧ ∀ k < F.length,
      let q := (k : ℝ) * d'.q.qstep
      F[k]? = some (if meanFactor lookup sites q = 0 then 0 else
        struSum g d'.rcalclo d'.rcalchi (siteFactor lookup sites q) W mask q / (atomCount sites * meanFactor lookup sites q ^ 2)) := by
  obtain ⟨-, rfl, hg', hp⟩ := eval_parts lookup sites width mask gen tails ht d hg d' v h
  obtain ⟨hq, hlo⟩ := good_par hg'
  have hqs : ¬ d'.q.qstep ≤ 0 := not_le.2 (lt_trans (by positivity) hg'.qstep)
  have hhi : d'.q.hi = ⌈d'.q.qmax / d'.q.qstep⌉ := by
    unfold QPar.hi qmaxSteps
    rw [if_neg hqs]
  have htot : totalOccupancy sites = atomCount sites := totalOccupancy_eq sites
  obtain ⟨F, h1, h2, h3⟩ := getF_normalized d'.q hq (sfPDF lookup sites) sites
    (basicTrace true (readGen (multOf sites) width (gen d'.rcalclo d'.rcalchi)) false mask sites.length 0 1) (by rw [htot]; exact hocc)
  refine ⟨F, h1, by rw [h2, hhi], fun k hk => ?_⟩
  have hk' : (k : ℤ) < d'.q.hi := by omega
  have h4 := h3 k (by rw [hlo]; omega) hk'
  dsimp only at h4 ⊢
  rw [mean_eq lookup sites hu d' hg' k hk', htot] at h4
  have h5 := value_exact lookup sites hu g hok hcnt hmult width W hw mask hmask d' hg' (by rw [hp]; exact hprec) gen (hgen _ _) (hW _ _) k hk'
  have hy : (value d'.q (cacheOf d'.q (sfPDF lookup sites) sites)
      (basicTrace true (readGen (multOf sites) width (gen d'.rcalclo d'.rcalchi)) false mask sites.length 0 1)).getD k 0 =
      struSum g d'.rcalclo d'.rcalchi (siteFactor lookup sites ((k : ℝ) * d'.q.qstep)) W mask ((k : ℝ) * d'.q.qstep) := by
    unfold evalStru at h5
    rw [List.getD_eq_getElem?_getD, h5, Option.getD_some]
  rw [hy, mul_comm (meanFactor lookup sites _ ^ 2)] at h4
  exact h4

/-- C85. The widths of bonds of a crystal with displacement tensors meet the conditions: `ω` gives the width for the sum of the mean square
displacements of the two atoms along the bond, and the length; `D i p s` is the displacement of the atom of site `i` at `p` in direction `s`. -/
theorem crystal_widths (c : Crys) (hc : ExactCrystal c) (hG : SpaceGroup c.L c.ops) (hbal : ∀ op ∈ c.ops, PDFCache.Balanced c.L op)
    (hid : IdentityFirst c.ops) (an : ℕ → Bool)
    (hU : ∀ i < c.atoms.length, GoodTensor ((c.atoms.map Crystal.Site.uij).getD i M3.one) (an i))
    (D : ℕ → V3 → V3 → ℝ) (hD : Displacements c an D) (ω : ℝ → ℝ → ℝ) :
    let W := fun i j v => ω (D i ((equivPos c i).headD V3.zero) v + D j (V3.add ((equivPos c i).headD V3.zero) v) v) (V3.norm v)
    WidthIs (.crystal c) (fun i j b => ω (c.msd an i j b) b.distance) W ∧ ∀ lo hi, Reciprocal (.crystal c) lo hi W := by
  intro W
  have hsub : ∀ a v : V3, V3.sub (V3.add a v) a = v := by intro a v; ext <;> simp [V3.add, V3.sub]
  constructor
  · rintro i hi' j hj v ⟨q, hq, s, rfl⟩ -
    have hx : V3.add ((equivPos c i).headD V3.zero) (V3.sub (moved c.L q s) ((equivPos c i).headD V3.zero)) = moved c.L q s := by
      ext <;> simp [V3.add, V3.sub]
    have h := crystal_msd c hc hG hbal hid an hU D hD i j hi' hj (moved c.L q s) ⟨q, hq, s, rfl⟩
    show ω (c.msd an i j ⟨j, V3.add ((equivPos c i).headD V3.zero) _, _, _⟩) (V3.norm _) = W i j _
    simp only [W]
    rw [hx]
    dsimp only at h
    rw [← h]
    rfl
  · intro lo hi
    have h := reciprocal_crystal c hc lo hi _ (displacements_sym c hc hG an D hD ω)
    have e : W = fun i j v => (fun i j p x => ω (D i p (V3.sub x p) + D j x (V3.sub x p)) (V3.distance x p)) i j
        ((equivPos c i).headD V3.zero) (V3.add ((equivPos c i).headD V3.zero) v) := by
      funext i j v
      simp only [W]
      unfold V3.distance
      rw [hsub]
    rw [e]
    exact h

/-! ### A concrete case -/

/-- Two atoms of carbon, six units apart. -/
noncomputable def exPos (i : ℕ) : V3 := ⟨6 * i, 0, 0⟩

/-- Their structure. -/
noncomputable def exGeom : Geometry := .cluster 2 exPos

/-- The theorem applied to them with constant factors; the bond is in the extended range from 5.1 to 10 of the calculator `exD`. -/
example (tails : ℝ → ℝ → ℝ) (ht : ∀ a b, 0 ≤ tails a b) (gen : ℝ → ℝ → Gen BondGen.Bond) (hgen : ∀ lo hi, exGeom.IsGen lo hi (gen lo hi)) :
    ∃ d' v F, eval (fun _ _ => 1) [⟨"C", 1, 1⟩, ⟨"C", 1, 1⟩] (fun _ _ _ => 1 / 10) (fun _ _ => true) gen tails exD = .ok (d', v) ∧
      getFStru (fun _ _ => 1) [⟨"C", 1, 1⟩, ⟨"C", 1, 1⟩] d' v = some F ∧
      (∀ k < F.length, ∃ y, F[k]? = some y ∧
        |y - struSum exGeom d'.rcalclo d'.rcalchi (siteFactor (fun _ _ => 1) [⟨"C", 1, 1⟩, ⟨"C", 1, 1⟩] ((k : ℝ) * d'.q.qstep))
            (fun _ _ _ => 1 / 10) (fun _ _ => true) ((k : ℝ) * d'.q.qstep) / 2| ≤
          exD.q.prec * (bondCount exGeom d'.rcalclo d'.rcalchi (fun _ _ => true) : ℝ) / 2) ∧
      V3.sub (exPos 1) (exPos 0) ∈ vecs exGeom d'.rcalclo d'.rcalchi 0 1 := by
  obtain ⟨d1, -, -, h1, -, -, -, -, -, hlo, hhi, -, -⟩ := setRstep_untracked tails ht
  have hev : eval (fun _ _ => 1) [⟨"C", 1, 1⟩, ⟨"C", 1, 1⟩] (fun _ _ _ => 1 / 10) (fun _ _ => true) gen tails exD =
      .ok (d1, evalStru (fun _ _ => 1) [⟨"C", 1, 1⟩, ⟨"C", 1, 1⟩] (fun _ _ _ => 1 / 10) (fun _ _ => true) gen d1) := by
    unfold eval
    rw [h1]
  have hN : atomCount [⟨"C", 1, 1⟩, ⟨"C", 1, 1⟩] = 2 := by
    unfold atomCount; norm_num
  have hM : ∀ q, meanFactor (fun _ _ => 1) [⟨"C", 1, 1⟩, ⟨"C", 1, 1⟩] q = 1 := by
    intro q; unfold meanFactor; rw [hN]; norm_num
  obtain ⟨F, hF, -, hv⟩ := debye_F_partial (fun _ _ => 1) (fun _ _ _ _ _ => le_refl _) [⟨"C", 1, 1⟩, ⟨"C", 1, 1⟩]
    (by
      intro s hs t ht _
      simp only [List.mem_cons, List.not_mem_nil, or_false, or_self] at hs ht
      rw [hs, ht])
    (by rw [hN]; norm_num) exGeom trivial rfl
    (by
      intro i s hs
      have : s ∈ [(⟨"C", 1, 1⟩ : Site), ⟨"C", 1, 1⟩] := List.mem_of_getElem? hs
      simp only [List.mem_cons, List.not_mem_nil, or_false, or_self] at this
      rw [this]
      rfl)
    (fun _ _ _ => 1 / 10) (fun _ _ _ => 1 / 10) (fun _ _ _ _ _ _ _ => rfl)
    (fun lo hi => reciprocal_distance exGeom trivial lo hi (fun _ _ _ => 1 / 10) fun _ _ _ => rfl)
    (fun _ _ => true) (fun _ _ => rfl) gen hgen tails ht exD exD_good (by unfold exD; norm_num) d1 _ hev
  refine ⟨d1, _, F, hev, hF, fun k hk => ?_, ?_⟩
  · obtain ⟨y, h2, -, h4⟩ := hv k hk
    rw [hM, hN] at h4
    norm_num only [one_pow, mul_one, ne_eq, one_ne_zero, not_false_eq_true, true_implies] at h4
    exact ⟨y, h2, h4⟩
  · have hnorm : V3.norm (V3.sub (exPos 1) (exPos 0)) = 6 := by
      unfold V3.norm V3.dot V3.sub exPos
      norm_num
      rw [show (36 : ℝ) = 6 ^ 2 by norm_num, Real.sqrt_sq (by norm_num)]
    rw [(vecs_spec exGeom trivial _ _ 0 1 (by decide) (by decide)).2]
    refine ⟨rfl, ?_⟩
    rw [hlo, hhi, hnorm]
    exact ⟨by norm_num, by norm_num, by norm_num⟩

end Verif.Debye
