import Verif.Model.OverlapSum
import Verif.Props.CrystalExample
/-! The three kinds of structures as specified by the user, and what their bond generators deliver: used by the end-to-end
properties of the calculators. -/
set_option linter.unusedSectionVars false
namespace Verif.Geo
open Verif.BondGen Verif.Eval Verif.R3 Verif.Lattice Verif.Periodic
open Verif.PDFCache (shift imageVec IsPeriodicGen imageBonds periodic_genSpec imageBonds_sum wrapVec wrap_equiv IsCrystalGen
  orbitBonds crystal_genSpec orbitBonds_sum orbit_finite orbitSum Orbit moved orbitSum_congr orbit_balance headD_mem ExactCrystal SpaceGroup
  spaceGroup_sym equivPos_ne basicLoop_congr wrapVec_neg distance_comm crystalGen_exists periodicGen_exists orbitBonds_mem)
open Verif.Crystal (Crys equivPos)

/-! ### Specification -/

/-- A structure: a finite group of atoms, a cell with atoms repeated by the lattice, or a crystal given by its asymmetric unit
and symmetry operations. -/
inductive Geometry
  | cluster (n : ℕ) (pos : ℕ → V3)
  | periodic (n : ℕ) (L : Lat) (xyz : ℕ → V3)
  | crystal (c : Crys)

namespace Geometry

/-- Number of sites. -/
def cnt : Geometry → ℕ
  | cluster n _ => n
  | periodic n _ _ => n
  | crystal c => c.atoms.length

/-- Multiplicity of a site. -/
noncomputable def mult : Geometry → ℕ → ℕ
  | cluster _ _, _ => 1
  | periodic _ _ _, _ => 1
  | crystal c, i => (equivPos c i).length

/-- The vectors from (the first position of) site `i` to the atoms of site `j`: for a periodic structure to all lattice images,
for a crystal to all lattice images of all equivalent positions. -/
def IsVec : Geometry → ℕ → ℕ → V3 → Prop
  | cluster _ pos, i, j, v => v = V3.sub (pos j) (pos i)
  | periodic _ L xyz, i, j, v => ∃ s, v = imageVec L xyz i j s
  | crystal c, i, j, v => ∃ q ∈ equivPos c j, ∃ s, v = V3.sub (moved c.L q s) ((equivPos c i).headD V3.zero)

/-- The sum of `F` over these vectors. -/
noncomputable def sum : Geometry → ℕ → ℕ → (V3 → ℝ) → ℝ
  | cluster _ pos, i, j, F => F (V3.sub (pos j) (pos i))
  | periodic _ L xyz, i, j, F => ∑ᶠ s : ℤ × ℤ × ℤ, F (imageVec L xyz i j s)
  | crystal c, i, j, F =>
    ((equivPos c j).map fun q => ∑ᶠ s : ℤ × ℤ × ℤ, F (V3.sub (moved c.L q s) ((equivPos c i).headD V3.zero))).sum

/-- Structures to which the theorems apply: any cluster; a lattice that can be set, with no atom within the tolerance below a
cell face; a crystal with the operations of a space group whose images do not nearly coincide. -/
def Ok : Geometry → Prop
  | cluster _ _ => True
  | periodic _ L xyz => Reachable L ∧ ∀ i, Unsnapped L (xyz i)
  | crystal c => ExactCrystal c ∧ SpaceGroup c.L c.ops

/-- The position that bonds of site `i` start from. -/
noncomputable def anchor : Geometry → ℕ → V3
  | cluster _ pos, i => pos i
  | periodic _ L xyz, i => L.ucvCartesian (xyz i)
  | crystal c, i => (equivPos c i).headD V3.zero

/-- `gen` is the bond generator of the structure with limits `lo` and `hi`, whatever it was used for before. -/
def IsGen : Geometry → ℝ → ℝ → Gen Bond → Prop
  | cluster _ pos, lo, hi, gen => ∃ old : ℕ → List ℕ → Cur, gen = fun i sel => (baseLoop ⟨pos i, lo, hi⟩ pos sel (old i sel)).map fun b => (b.site1, b)
  | periodic _ L xyz, lo, hi, gen => IsPeriodicGen L xyz lo hi gen
  | crystal c, lo, hi, gen => IsCrystalGen c lo hi gen

end Geometry

/-- The range of a bond generator: from `lo` to `hi`, both included, without coincident atoms. -/
def InRange (lo hi d : ℝ) : Prop := lo ≤ d ∧ d ≤ hi ∧ 1 / 2 ^ 26 < d

noncomputable instance (lo hi d : ℝ) : Decidable (InRange lo hi d) := Classical.propDecidable _

/-- `F` for a vector in range, otherwise zero. -/
noncomputable def cut (lo hi : ℝ) (F : V3 → ℝ) (v : V3) : ℝ := if InRange lo hi (V3.norm v) then F v else 0

/-! ### The bonds delivered -/

theorem gen_exists (g : Geometry) (lo hi : ℝ) : ∃ gen, g.IsGen lo hi gen := by
  cases g with
  | cluster n pos => exact ⟨_, fun _ _ => ⟨⟨0, 0, 0⟩, ⟨0, 0, 0⟩, 0⟩, rfl⟩
  | periodic n L xyz => exact periodicGen_exists L xyz lo hi
  | crystal c => exact crystalGen_exists c lo hi

theorem mapGen_spec {A B : Type} (φ : A → B) (gen : Gen A) (c : ℕ → ℕ → List A) (hg : GenSpec gen c) :
    GenSpec (mapGen φ gen) fun i j => (c i j).map φ := by
  intro i sel
  refine ((hg i sel).map _).trans (List.Perm.of_eq ?_)
  rw [List.map_flatMap]
  congr 1
  funext j
  rw [List.map_map, List.map_map]
  rfl

theorem good_iff (a : V3) (lo hi d : ℝ) : GoodDist ⟨a, lo, hi⟩ d ↔ InRange lo hi d := Iff.rfl

/-- What a generator delivers, for each pair of sites: `bonds i j`. -/
structure Delivers (g : Geometry) (lo hi : ℝ) (gen : Gen Bond) (bonds : ℕ → ℕ → List Bond) : Prop where
  spec : ∃ gen1, GenSpec gen1 bonds ∧ ∀ i sel, i < g.cnt → (∀ j ∈ sel, j < g.cnt) → gen i sel = gen1 i sel
  dist : ∀ i j, ∀ b ∈ bonds i j, b.distance = V3.norm b.r01
  ends : ∀ i j, ∀ b ∈ bonds i j, b.site1 = j ∧ b.r01 = V3.sub b.r1 (g.anchor i)
  mem : ∀ i < g.cnt, ∀ j < g.cnt, ∀ v, (∃ b ∈ bonds i j, b.r01 = v) ↔ g.IsVec i j v ∧ InRange lo hi (V3.norm v)
  sum : ∀ i < g.cnt, ∀ j < g.cnt, ∀ F : V3 → ℝ, ((bonds i j).map fun b => F b.r01).sum = g.sum i j (cut lo hi F)

theorem map_sub_sum (l : List V3) (f : V3 → ℝ) (g : V3 → ℝ) (h : ∀ q ∈ l, f q = g q) : (l.map f).sum = (l.map g).sum := by
  rw [List.map_congr_left h]

theorem delivers (g : Geometry) (hok : g.Ok) (lo hi : ℝ) (gen : Gen Bond) (hgen : g.IsGen lo hi gen) :
    ∃ bonds, Delivers g lo hi gen bonds := by
  cases g with
  | cluster n pos =>
    obtain ⟨old, rfl⟩ := hgen
    refine ⟨fun i j => specBond ⟨pos i, lo, hi⟩ j (pos j), ⟨_, base_loop_genSpec pos lo hi old, fun _ _ _ _ => rfl⟩, ?_, ?_, ?_, ?_⟩
    · intro i j b hb
      unfold specBond at hb
      split at hb
      · rw [List.mem_singleton] at hb; subst hb; rfl
      · simp at hb
    · intro i j b hb
      unfold specBond at hb
      split at hb
      · rw [List.mem_singleton] at hb; subst hb; exact ⟨rfl, rfl⟩
      · simp at hb
    · intro i _ j _ v
      unfold specBond
      constructor
      · rintro ⟨b, hb, rfl⟩
        split at hb
        · rename_i h
          rw [List.mem_singleton] at hb; subst hb; exact ⟨rfl, h⟩
        · simp at hb
      · rintro ⟨rfl, h⟩
        have h' : GoodDist ⟨pos i, lo, hi⟩ (V3.distance (pos j) (pos i)) := h
        rw [if_pos h']
        exact ⟨_, List.mem_singleton.2 rfl, rfl⟩
    · intro i _ j _ F
      show _ = cut lo hi F (V3.sub (pos j) (pos i))
      unfold specBond cut
      by_cases h : GoodDist ⟨pos i, lo, hi⟩ (V3.distance (pos j) (pos i))
      · have h' : InRange lo hi (V3.norm (V3.sub (pos j) (pos i))) := h
        rw [if_pos h, if_pos h']; simp
      · have h' : ¬ InRange lo hi (V3.norm (V3.sub (pos j) (pos i))) := h
        rw [if_neg h, if_neg h']; simp
  | periodic n L xyz =>
    obtain ⟨hL, hx⟩ := hok
    obtain ⟨ts, hnd, hcov, hspec⟩ := periodic_genSpec L hL xyz lo hi gen hgen
    have hbond : ∀ i j s, (imageBond L xyz i (s, j)).r01 = wrapVec L xyz i j s := fun i j s => rfl
    have hbd : ∀ i j s, (imageBond L xyz i (s, j)).distance = V3.norm (wrapVec L xyz i j s) := fun i j s => rfl
    refine ⟨imageBonds L xyz lo hi ts, ⟨_, hspec, fun _ _ _ _ => rfl⟩, ?_, ?_, ?_, ?_⟩
    · intro i j b hb
      unfold imageBonds at hb
      obtain ⟨t, -, hb⟩ := List.mem_flatMap.1 hb
      unfold specBond at hb
      split at hb
      · rw [List.mem_singleton] at hb; subst hb; rfl
      · simp at hb
    · intro i j b hb
      unfold imageBonds at hb
      obtain ⟨t, -, hb⟩ := List.mem_flatMap.1 hb
      unfold specBond at hb
      split at hb
      · rw [List.mem_singleton] at hb; subst hb; exact ⟨rfl, rfl⟩
      · simp at hb
    · intro i _ j _ v
      obtain ⟨e, he⟩ := wrap_equiv L hL xyz hx i j
      unfold imageBonds
      constructor
      · rintro ⟨b, hb, rfl⟩
        obtain ⟨t, -, hb⟩ := List.mem_flatMap.1 hb
        unfold specBond at hb
        split at hb
        · rename_i h
          rw [List.mem_singleton] at hb; subst hb
          exact ⟨⟨e t, he t⟩, h⟩
        · simp at hb
      · rintro ⟨⟨s, rfl⟩, h⟩
        have hs : wrapVec L xyz i j (e.symm s) = imageVec L xyz i j s := by rw [he, Equiv.apply_symm_apply]
        rw [← hs] at h ⊢
        have hg : GoodDist ⟨L.ucvCartesian (xyz i), lo, hi⟩ (imageBond L xyz i (e.symm s, j)).distance := h
        refine ⟨imageBond L xyz i (e.symm s, j), ?_, rfl⟩
        rw [List.mem_flatMap]
        refine ⟨e.symm s, hcov _ _ _ hg, ?_⟩
        unfold specBond
        have hg' : GoodDist ⟨L.ucvCartesian (xyz i), lo, hi⟩
          (V3.distance (V3.add (shift L (e.symm s)) (L.ucvCartesian (xyz j))) (L.ucvCartesian (xyz i))) := hg
        rw [if_pos hg']
        exact List.mem_singleton.2 rfl
    · intro i _ j _ F
      obtain ⟨e, he⟩ := wrap_equiv L hL xyz hx i j
      rw [imageBonds_sum _ _ _ _ _ hnd _ _ (fun s => hcov s i j)]
      show _ = ∑ᶠ s, cut lo hi F (imageVec L xyz i j s)
      rw [← finsum_comp_equiv e (f := fun s => cut lo hi F (imageVec L xyz i j s))]
      refine finsum_congr fun s => ?_
      rw [← he]
      unfold cut
      rw [hbd, hbond]
      by_cases h : GoodDist ⟨L.ucvCartesian (xyz i), lo, hi⟩ (V3.norm (wrapVec L xyz i j s))
      · rw [if_pos h, if_pos ((good_iff _ _ _ _).1 h)]
      · rw [if_neg h, if_neg fun hh => h ((good_iff _ _ _ _).2 hh)]
  | crystal c =>
    obtain ⟨hc, hS⟩ := hok
    obtain ⟨ts, hnd, hcov, hspec⟩ := crystal_genSpec c hc.lat hc.eps hc.ops lo hi gen hgen
    set N := c.atoms.length with hN
    set O := equivPos c with hO
    have hne : ∀ i < N, O i ≠ [] := fun i h => equivPos_ne c hc.eps i h
    have hhead : ∀ i < N, (O i).headD V3.zero ∈ O i := fun i h => headD_mem _ _ (hne i h)
    refine ⟨orbitBonds c.L N O lo hi ts, ⟨fun i sel => if i < N ∧ ∀ j ∈ sel, j < N then gen i sel else
      sel.flatMap fun j => (orbitBonds c.L N O lo hi ts i j).map fun b => (j, b), ?_, ?_⟩, ?_, ?_, ?_, ?_⟩
    · intro i sel
      by_cases h : i < N ∧ ∀ j ∈ sel, j < N
      · simp only [if_pos h]; exact hspec i sel h.1 h.2
      · simp only [if_neg h]; exact List.Perm.refl _
    · intro i sel h1 h2
      exact (if_pos ⟨h1, h2⟩).symm
    · intro i j b hb
      obtain ⟨-, -, q, -, t, -, rfl⟩ := orbitBonds_mem _ _ _ _ _ _ _ _ _ hb
      rfl
    · intro i j b hb
      obtain ⟨-, -, q, -, t, -, rfl⟩ := orbitBonds_mem _ _ _ _ _ _ _ _ _ hb
      exact ⟨rfl, rfl⟩
    · intro i hi' j hj v
      constructor
      · rintro ⟨b, hb, rfl⟩
        obtain ⟨-, -, q, hq, t, hg, rfl⟩ := orbitBonds_mem _ _ _ _ _ _ _ _ _ hb
        exact ⟨⟨q, hq, t, rfl⟩, hg⟩
      · rintro ⟨⟨q, hq, t, rfl⟩, h⟩
        have hg : GoodDist ⟨(O i).headD V3.zero, lo, hi⟩ (V3.distance (moved c.L q t) ((O i).headD V3.zero)) := h
        refine ⟨⟨j, moved c.L q t, V3.sub (moved c.L q t) ((O i).headD V3.zero), V3.distance (moved c.L q t) ((O i).headD V3.zero)⟩, ?_, rfl⟩
        unfold orbitBonds
        have hij : i < N ∧ j < N := ⟨hi', hj⟩
        rw [if_pos hij, List.mem_flatMap]
        refine ⟨q, hq, ?_⟩
        rw [List.mem_flatMap]
        refine ⟨t, hcov i j _ q t hi' hj (hhead i hi') hq hg, ?_⟩
        unfold specBond
        rw [if_pos hg]
        exact List.mem_singleton.2 rfl
    · intro i hi' j hj F
      rw [orbitBonds_sum c.L N O _ _ ts hnd i j hi' hj (fun q hq s hd => hcov i j _ q s hi' hj (hhead i hi') hq hd)]
      show _ = ((O j).map fun q => ∑ᶠ s : ℤ × ℤ × ℤ, cut lo hi F (V3.sub (moved c.L q s) ((O i).headD V3.zero))).sum
      unfold orbitSum
      refine map_sub_sum _ _ _ fun q _ => finsum_congr fun s => ?_
      unfold cut
      dsimp only
      by_cases h : GoodDist ⟨(O i).headD V3.zero, lo, hi⟩ (V3.distance (moved c.L q s) ((O i).headD V3.zero))
      · have h' : InRange lo hi (V3.norm (V3.sub (moved c.L q s) ((O i).headD V3.zero))) := h
        rw [if_pos h, if_pos h']
      · have h' : ¬ InRange lo hi (V3.norm (V3.sub (moved c.L q s) ((O i).headD V3.zero))) := h
        rw [if_neg h, if_neg h']

/-- The contributions of a serial evaluation, for any view of the bonds. -/
theorem trace_perm {B : Type} (g : Geometry) (lo hi : ℝ) (gen : Gen Bond) (bonds : ℕ → ℕ → List Bond)
    (h : Delivers g lo hi gen bonds) (φ : Bond → B) (rule full : Bool) (use : ℕ → ℕ → Bool) (n : ℤ) :
    (basicTrace rule (mapGen φ gen) full use g.cnt n 1).Perm
      (specContribs (fun i j => (bonds i j).map φ) full use g.cnt) := by
  obtain ⟨gen1, h1, h2⟩ := h.spec
  have e : basicTrace rule (mapGen φ gen) full use g.cnt n 1 = basicTrace rule (mapGen φ gen1) full use g.cnt n 1 := by
    unfold basicTrace
    simp only
    rw [basicLoop_congr (mapGen φ gen) (mapGen φ gen1) _ _ _ _ _ _ ?_ _ (fun i hi => List.mem_range.1 hi)]
    intro i sel hi hsel
    unfold mapGen
    rw [h2 i sel hi hsel]
  rw [e]
  exact basic_serial_spec rule _ _ (mapGen_spec φ _ _ h1) full use g.cnt n

/-- Bonds in range are finitely many: the sums over lattice images are sums of finitely many terms. -/
theorem range_finite (g : Geometry) (hok : g.Ok) (lo hi : ℝ) (i j : ℕ) (h1 : i < g.cnt) (h2 : j < g.cnt) :
    match g with
    | .cluster _ _ => True
    | .periodic _ L xyz => {s | InRange lo hi (V3.norm (imageVec L xyz i j s))}.Finite
    | .crystal c => ∀ p ∈ equivPos c i, ∀ q ∈ equivPos c j, {s | InRange lo hi (V3.norm (V3.sub (moved c.L q s) p))}.Finite := by
  cases g with
  | cluster n pos => trivial
  | periodic n L xyz =>
    obtain ⟨hL, hx⟩ := hok
    obtain ⟨gen, hgen⟩ := periodicGen_exists L xyz lo hi
    obtain ⟨ts, hnd, hcov, hspec⟩ := periodic_genSpec L hL xyz lo hi gen hgen
    obtain ⟨e, he⟩ := wrap_equiv L hL xyz hx i j
    refine Set.Finite.subset ((Finset.finite_toSet ts.toFinset).image e) ?_
    intro s hs
    refine ⟨e.symm s, ?_, by simp⟩
    rw [Finset.mem_coe, List.mem_toFinset]
    refine hcov _ i j ?_
    show InRange lo hi (V3.norm (wrapVec L xyz i j (e.symm s)))
    rw [he, Equiv.apply_symm_apply]
    exact hs
  | crystal c =>
    obtain ⟨hc, hS⟩ := hok
    obtain ⟨gen, hgen⟩ := crystalGen_exists c lo hi
    obtain ⟨ts, hnd, hcov, hspec⟩ := crystal_genSpec c hc.lat hc.eps hc.ops lo hi gen hgen
    intro p hp q hq
    refine Set.Finite.subset (List.finite_toSet ts) fun s hs => ?_
    exact hcov i j p q s h1 h2 hp hq hs

/-- The number of atoms of site `j` at a given distance from an atom of site `i`, times the multiplicity of `i`, is symmetric in
`i` and `j`. -/
theorem balance (g : Geometry) (hok : g.Ok) (lo hi : ℝ) (ψ : ℝ → ℝ) (i j : ℕ) (h1 : i < g.cnt) (h2 : j < g.cnt) :
    (g.mult i : ℝ) * g.sum i j (cut lo hi fun v => ψ (V3.norm v)) = (g.mult j : ℝ) * g.sum j i (cut lo hi fun v => ψ (V3.norm v)) := by
  cases g with
  | cluster n pos =>
    simp only [Geometry.mult, Geometry.sum]
    congr 1
    have e : V3.norm (V3.sub (pos j) (pos i)) = V3.norm (V3.sub (pos i) (pos j)) := distance_comm _ _
    unfold cut
    dsimp only
    rw [e]
  | periodic n L xyz =>
    simp only [Geometry.mult, Geometry.sum]
    congr 1
    rw [← finsum_comp_equiv (Equiv.neg (ℤ × ℤ × ℤ)) (f := fun s => cut lo hi (fun v => ψ (V3.norm v)) (imageVec L xyz i j s))]
    refine finsum_congr fun s => ?_
    have e : V3.norm (imageVec L xyz i j (-s)) = V3.norm (imageVec L xyz j i s) := by
      rw [← PDFCache.norm_neg]
      congr 1
      unfold imageVec shift
      ext <;> simp [V3.sub, V3.add, V3.zero, Lat.cartesian, tripVec, M3.vecMul, V3.dot, M3.c0, M3.c1, M3.c2] <;> ring
    rw [Equiv.neg_apply]
    unfold cut
    dsimp only
    rw [e]
  | crystal c =>
    obtain ⟨hc, hS⟩ := id hok
    have hW : PDFCache.CrystalSym c.L c.atoms.length (equivPos c) (fun _ _ _ _ => (0 : ℝ)) :=
      spaceGroup_sym c hc hS _ (fun _ _ _ _ _ _ _ _ _ _ _ => rfl) (fun _ _ _ _ _ _ _ _ => rfl)
    have hfin : ∀ x y, x < c.atoms.length → y < c.atoms.length → ∀ p ∈ equivPos c x,
        (Orbit c.L (equivPos c y) ∩ Function.support fun z => cut lo hi (fun v => ψ (V3.norm v)) (V3.sub z p)).Finite := by
      intro x y hx hy p hp
      obtain ⟨gen, hgen⟩ := crystalGen_exists c lo hi
      obtain ⟨ts, hnd, hcov, hspec⟩ := crystal_genSpec c hc.lat hc.eps hc.ops lo hi gen hgen
      refine orbit_finite c.L (equivPos c y) ts _ fun q hq s hs => ?_
      refine hcov x y p q s hx hy hp hq ?_
      by_contra hn
      exact hs (if_neg hn)
    have hb := orbit_balance c.L hc.lat c.atoms.length (equivPos c) (fun _ _ _ _ => (0 : ℝ)) hW i j h1 h2
      (fun d _ => if InRange lo hi d then ψ d else 0)
      (hfin i j h1 h2)
      (hfin j i h2 h1)
    have e : ∀ x y, (Geometry.crystal c).sum x y (cut lo hi fun v => ψ (V3.norm v)) = orbitSum c.L (equivPos c y) fun z =>
        if InRange lo hi (V3.distance z ((equivPos c x).headD V3.zero)) then ψ (V3.distance z ((equivPos c x).headD V3.zero)) else 0 := by
      intro x y
      rfl
    rw [e, e]
    exact hb

end Verif.Geo
