import Verif.Props.CrystalSum
/-
C61: the RDF of a crystal with symmetry operations.  `getRDF` after `eval` is the pair sum over all equivalent
positions of all sites and all lattice translations.
-/
set_option linter.unusedSectionVars false
namespace Verif.PDFCache
open Verif.PDFGrid Verif.Eval Verif.R3 Verif.BondGen Verif.Lattice Verif.Points Verif.Periodic
open Verif.Crystal (Crys CrystalBonds equivPos)

/-- Specification: the pair sum over the positions `O i` of all sites and all lattice translations.  `W i j p x` is the
width for an atom of site `i` at `p` and an atom of site `j` at `x`. -/
noncomputable def crystalRDF (y : ℝ → ℝ → ℝ) (n : Nat) (f : Nat → ℝ) (mask : Nat → Nat → Bool) (L : Lat)
    (O : Nat → List V3) (W : Nat → Nat → V3 → V3 → ℝ) (r : ℝ) : ℝ :=
  ∑ i ∈ Finset.range n, ∑ j ∈ Finset.range n,
    if mask i j = true then
      ((O i).map fun p => ((O j).map fun q => ∑ᶠ t : ℤ × ℤ × ℤ,
        pairTerm y (f i * f j) (W i j p (moved L q t)) (V3.sub (moved L q t) p) r).sum).sum
    else 0

/-- `gen` is a generator created by `createBondGenerator` of the crystal `c`, with the limits `lo` and `hi` and any bond
data left from earlier use (CrystalStructureAdapter.cpp:61-67, :280-362). -/
def IsCrystalGen (c : Crys) (lo hi : ℝ) (gen : Gen Bond) : Prop :=
  ∀ i sel, i < c.atoms.length → (∀ j ∈ sel, j < c.atoms.length) →
    ∃ old bonds, CrystalBonds c lo hi i sel old bonds ∧ gen i sel = bonds.map fun b => (b.site1, b)

theorem crystalGen_exists (c : Crys) (lo hi : ℝ) : ∃ gen, IsCrystalGen c lo hi gen := by
  obtain ⟨l, hl, -⟩ := sphere_terminates (lo - c.L.ucMaxDiagonalLength) (hi + c.L.ucMaxDiagonalLength) (latPar c.L)
  exact ⟨_, fun i sel _ _ => ⟨⟨⟨0, 0, 0⟩, ⟨0, 0, 0⟩, 0⟩, _, ⟨l, hl, rfl⟩, rfl⟩⟩

/-- Two generators that agree on the sites of the structure give the same evaluation. -/
theorem basicLoop_congr {B : Type} (g1 g2 : Gen B) (full : Bool) (use : Nat → Nat → Bool) (cnt : Nat) (co ci : Bool) (ncpu : Int)
    (h : ∀ i sel, i < cnt → (∀ j ∈ sel, j < cnt) → g1 i sel = g2 i sel) (l : List Nat) (hl : ∀ i ∈ l, i < cnt) (n : Int) :
    basicLoop g1 full use cnt co ci ncpu l n = basicLoop g2 full use cnt co ci ncpu l n := by
  induction l generalizing n with
  | nil => rfl
  | cons i l ih =>
    have hi := hl i (List.mem_cons_self ..)
    have e : g1 i (List.range (if full then cnt else i + 1)) = g2 i (List.range (if full then cnt else i + 1)) := by
      apply h i _ hi
      intro j hj
      rw [List.mem_range] at hj
      split at hj <;> omega
    have ih' := ih fun k hk => hl k (List.mem_cons_of_mem i hk)
    unfold basicLoop
    split
    · exact ih' _
    · simp only [e, ih']

/-- The bonds from the anchor of site `i` to the positions of site `j` moved by the translations `ts`. -/
noncomputable def orbitBonds (L : Lat) (n : Nat) (O : Nat → List V3) (lo hi : ℝ) (ts : List (ℤ × ℤ × ℤ)) (i j : Nat) : List Bond :=
  if i < n ∧ j < n then
    (O j).flatMap fun q => ts.flatMap fun t => specBond ⟨(O i).headD V3.zero, lo, hi⟩ j (moved L q t)
  else []

theorem equivPos_ne (c : Crys) (he : 0 ≤ c.eps) (i : Nat) (hi : i < c.atoms.length) : equivPos c i ≠ [] := by
  unfold equivPos
  rw [List.getD_eq_getElem _ _ (by simpa using hi), List.getElem_map]
  simpa using Crystal.symOf_ne_nil c.L c.eps he c.ops _

theorem equivPos_cell (c : Crys) (he : 0 ≤ c.eps) (hne : c.ops ≠ []) (i : Nat) (hi : i < c.atoms.length) (q : V3)
    (hq : q ∈ equivPos c i) : ∃ u, Periodic.InCell u ∧ q = c.L.cartesian u := by
  unfold equivPos at hq
  obtain ⟨s, hs, rfl⟩ := List.mem_map.1 hq
  rw [List.getD_eq_getElem _ _ (by simpa using hi), List.getElem_map] at hs
  exact Crystal.symOf_inCell c.L c.eps he c.ops hne _ s hs

/-- A crystal generator visits the orbit bonds, for one list of translations without repetition that contains every
translation giving a pair in range. -/
theorem crystal_genSpec (c : Crys) (hL : Reachable c.L) (he : 0 ≤ c.eps) (hne : c.ops ≠ []) (lo up : ℝ) (gen : Gen Bond)
    (hg : IsCrystalGen c lo up gen) :
    ∃ ts : List (ℤ × ℤ × ℤ), ts.Nodup ∧
      (∀ i j p q t, i < c.atoms.length → j < c.atoms.length → p ∈ equivPos c i → q ∈ equivPos c j →
        GoodDist ⟨p, lo, up⟩ (V3.distance (moved c.L q t) p) → t ∈ ts) ∧
      ∀ i sel, i < c.atoms.length → (∀ j ∈ sel, j < c.atoms.length) →
        (gen i sel).Perm (sel.flatMap fun j =>
          (orbitBonds c.L c.atoms.length (equivPos c) lo up ts i j).map fun b => (j, b)) := by
  obtain ⟨l, hl, hu⟩ := sphere_terminates (lo - c.L.ucMaxDiagonalLength) (up + c.L.ucMaxDiagonalLength) (latPar c.L)
  refine ⟨l.headD (0, 0, 0) :: l.tail, ?_, ?_, ?_⟩
  · have := sphere_nodup _ _ _ (latPar_proper c.L hL) l hl
    cases l with
    | nil => simp
    | cons a l => simpa using this
  · intro i j p q t hi hj hp hq hd
    obtain ⟨u, hu1, rfl⟩ := equivPos_cell c he hne i hi p hp
    obtain ⟨v, hv1, rfl⟩ := equivPos_cell c he hne j hj q hq
    have : t ∈ l := by
      apply sphere_covers c.L hL _ _ l hl v u hv1 hu1 t
      have e : V3.add (c.L.cartesian (tripVec t)) (c.L.cartesian v) = moved c.L (c.L.cartesian v) t := by
        unfold moved shift
        ext <;> simp [V3.add] <;> ring
      rw [e]
      exact hd
    cases l with
    | nil => simp at this
    | cons a l => simpa using this
  · intro i sel hi hsel
    obtain ⟨old, bonds, ⟨l', hv, rfl⟩, hgen⟩ := hg i sel hi hsel
    have : l' = l := hu l' hv
    subst this
    have hsymE : ∀ i, ((c.updateSymmetryPositions.sym.getD i []).map Crystal.Site.xyz) = equivPos c i := fun i => rfl
    rw [hgen]
    simp only [hsymE]
    rw [cry_loop_exact _ _ _ _ (fun j hj => equivPos_ne c he j (hsel j hj)), pts_cases]
    refine List.Perm.of_eq ?_
    rw [List.map_flatMap]
    apply List.flatMap_congr
    intro j hj
    have hb : orbitBonds c.L c.atoms.length (equivPos c) lo up (l'.headD (0, 0, 0) :: l'.tail) i j =
      (equivPos c j).flatMap fun q => (l'.headD (0, 0, 0) :: l'.tail).flatMap fun t =>
        specBond ⟨(equivPos c i).headD V3.zero, lo, up⟩ j (moved c.L q t) := if_pos ⟨hi, hsel j hj⟩
    rw [hb]
    rw [List.map_flatMap, List.map_flatMap]
    congr 1
    funext q
    rw [List.flatMap_map, List.map_flatMap, List.map_flatMap]
    congr 1
    funext t
    have e : V3.add (c.L.cartesian (tripVec t)) q = moved c.L q t := by
      unfold moved shift
      ext <;> simp [V3.add] <;> ring
    rw [e]
    unfold specBond
    split <;> simp

open Classical in
/-- A sum over orbit bonds as a sum over the orbit. -/
theorem orbitBonds_sum (L : Lat) (n : Nat) (O : Nat → List V3) (lo up : ℝ) (ts : List (ℤ × ℤ × ℤ)) (hn : ts.Nodup)
    (i j : Nat) (hi : i < n) (hj : j < n)
    (hc : ∀ q ∈ O j, ∀ t, GoodDist ⟨(O i).headD V3.zero, lo, up⟩ (V3.distance (moved L q t) ((O i).headD V3.zero)) → t ∈ ts)
    (g : Bond → ℝ) :
    ((orbitBonds L n O lo up ts i j).map g).sum =
      orbitSum L (O j) fun x =>
        if GoodDist ⟨(O i).headD V3.zero, lo, up⟩ (V3.distance x ((O i).headD V3.zero)) then
          g ⟨j, x, V3.sub x ((O i).headD V3.zero), V3.distance x ((O i).headD V3.zero)⟩ else 0 := by
  have e : orbitBonds L n O lo up ts i j = (O j).flatMap fun q => ts.flatMap fun t =>
      specBond ⟨(O i).headD V3.zero, lo, up⟩ j (moved L q t) := if_pos ⟨hi, hj⟩
  rw [e, sum_flatMap_map]
  unfold orbitSum
  congr 1
  refine List.map_congr_left fun q hq => ?_
  rw [sum_flatMap_map, finsum_eq_sum_of_support_subset (s := ts.toFinset)]
  · rw [List.sum_toFinset _ hn]
    congr 1
    refine List.map_congr_left fun t _ => ?_
    have e : specBond ⟨(O i).headD V3.zero, lo, up⟩ j (moved L q t) =
        if GoodDist ⟨(O i).headD V3.zero, lo, up⟩ (V3.distance (moved L q t) ((O i).headD V3.zero)) then
          [⟨j, moved L q t, V3.sub (moved L q t) ((O i).headD V3.zero),
            V3.distance (moved L q t) ((O i).headD V3.zero)⟩] else [] := rfl
    rw [e]
    beta_reduce
    by_cases h : GoodDist ⟨(O i).headD V3.zero, lo, up⟩ (V3.distance (moved L q t) ((O i).headD V3.zero))
    · rw [if_pos h, if_pos h, List.map_cons, List.map_nil, List.sum_cons, List.sum_nil, add_zero]
    · rw [if_neg h, if_neg h, List.map_nil, List.sum_nil]
  · intro t ht
    rw [Function.mem_support] at ht
    rw [Finset.mem_coe, List.mem_toFinset]
    by_contra hx
    exact ht (if_neg fun h => hx (hc q hq t h))

/-- Only finitely many points of an orbit are in range. -/
theorem orbit_finite (L : Lat) (l : List V3) (ts : List (ℤ × ℤ × ℤ)) (F : V3 → ℝ)
    (hc : ∀ q ∈ l, ∀ t, F (moved L q t) ≠ 0 → t ∈ ts) : (Orbit L l ∩ Function.support F).Finite := by
  refine Set.Finite.subset (List.finite_toSet (l.flatMap fun q => ts.map fun t => moved L q t)) ?_
  rintro x ⟨⟨q, hq, t, rfl⟩, hx⟩
  change _ ∈ (l.flatMap fun q => ts.map fun t => moved L q t)
  rw [List.mem_flatMap]
  exact ⟨q, hq, List.mem_map.2 ⟨t, hc q hq t hx, rfl⟩⟩

theorem orbitBonds_mem (L : Lat) (n : Nat) (O : Nat → List V3) (lo up : ℝ) (ts : List (ℤ × ℤ × ℤ)) (i j : Nat) (b : Bond)
    (hb : b ∈ orbitBonds L n O lo up ts i j) :
    i < n ∧ j < n ∧ ∃ q ∈ O j, ∃ t, GoodDist ⟨(O i).headD V3.zero, lo, up⟩
      (V3.distance (moved L q t) ((O i).headD V3.zero)) ∧
      b = ⟨j, moved L q t, V3.sub (moved L q t) ((O i).headD V3.zero), V3.distance (moved L q t) ((O i).headD V3.zero)⟩ := by
  unfold orbitBonds at hb
  split at hb
  · next h =>
    simp only [List.mem_flatMap] at hb
    obtain ⟨q, hq, t, -, hb⟩ := hb
    unfold specBond at hb
    split at hb
    · next hd =>
      rw [List.mem_singleton] at hb
      exact ⟨h.1, h.2, q, hq, t, hd, hb⟩
    · simp at hb
  · simp at hb

theorem orbitBonds_filter (L : Lat) (n : Nat) (O : Nat → List V3) (dr : ℝ) (l : Limits) (ts : List (ℤ × ℤ × ℤ)) (i j : Nat) :
    (orbitBonds L n O ((l.clo : ℝ) * dr) ((l.chi : ℝ) * dr) ts i j).filter
      (fun b => inRange dr l ⟨b.distance, 0, 0⟩) = orbitBonds L n O ((l.clo : ℝ) * dr) ((l.chi : ℝ) * dr) ts i j := by
  rw [List.filter_eq_self]
  intro b hb
  obtain ⟨-, -, q, -, t, hd, rfl⟩ := orbitBonds_mem _ _ _ _ _ _ _ _ _ hb
  unfold inRange
  rw [decide_eq_true_eq]
  exact ⟨hd.1, hd.2.1⟩

theorem orbitSum_congr (L : Lat) (l : List V3) (F G : V3 → ℝ) (h : ∀ x ∈ Orbit L l, F x = G x) :
    orbitSum L l F = orbitSum L l G := by
  unfold orbitSum
  congr 1
  refine List.map_congr_left fun q hq => finsum_congr fun t => h _ (mem_orbit L l q hq t)

/-- The bond from `a` to an atom of site `j` at `x`. -/
noncomputable def bondOf (j : Nat) (a x : V3) : Bond := ⟨j, x, V3.sub x a, V3.distance x a⟩

open Classical in
/-- C61. `getRDF` after `eval` of a crystal: at every grid point the pair sum over all equivalent positions of all sites
and all lattice translations divided by N⟨f⟩².  The bond generator only looks from the first position of a site and
counts with the multiplicity; `CrystalSym` is what makes this correct.  `width` is what the peak width model gives for a
bond of the generator. -/
theorem rdf_orbits (lookup : String → ℝ) (m : Mask.State) (sites : List Site) (c : Crys) (hL : Reachable c.L)
    (he : 0 ≤ c.eps) (hne : c.ops ≠ []) (hcnt : sites.length = c.atoms.length)
    (p : Par ℝ) (ripples tails : ℝ) (ok : Ok p ripples tails) (hfit : ripples + tails ≤ p.maxext) (pf : Prof ℝ)
    (W : Nat → Nat → V3 → V3 → ℝ) (hS : CrystalSym c.L c.atoms.length (equivPos c) W)
    (hb : ∀ i j a x w, i < c.atoms.length → j < c.atoms.length → a ∈ equivPos c i → x ∈ Orbit c.L (equivPos c j) →
      w = W i j a x → 1 / 2 ^ 26 < V3.norm (V3.sub x a) →
      -tails ≤ pf.lo w ∧ pf.hi w ≤ tails ∧ ∀ x, (x ≤ pf.lo w ∨ pf.hi w ≤ x) → pf.y x w = 0)
    (width : Nat → Nat → Bond → ℝ)
    (hw : ∀ i < c.atoms.length, ∀ j < c.atoms.length, ∀ x ∈ Orbit c.L (equivPos c j),
      width i j (bondOf j ((equivPos c i).headD V3.zero) x) = W i j ((equivPos c i).headD V3.zero) x)
    (gen : Limits → Gen Bond)
    (hgen : IsCrystalGen c ((rlimits p ripples tails).clo * p.dr) ((rlimits p ripples tails).chi * p.dr)
      (gen (rlimits p ripples tails))) :
    let k := cacheOf lookup m.dflt m.inv sites
    let mask : Nat → Nat → Bool := fun i j => Mask.getPairMask m i j
    ∃ z, (evalGen p ripples tails pf width k
          (fun i => ((equivPos c i).length : ℝ)) mask sites.length gen).getRDF k.rdfScale = some z ∧
      z.length = (rgrid p.rmin p.rmax p.dr).length ∧
      ∀ (s : Nat) (n : ℤ), (rgrid p.rmin p.rmax p.dr)[s]? = some ((n : ℝ) * p.dr) →
        ((rlimits p ripples tails).clo = 0 ∨ p.rmin - ripples + p.dr ≤ (n : ℝ) * p.dr) →
        (∀ i j a q, i < c.atoms.length → j < c.atoms.length → a ∈ equivPos c i → q ∈ equivPos c j →
          (Function.support fun t : ℤ × ℤ × ℤ =>
            pairTerm pf.y (factor lookup sites i * factor lookup sites j) (W i j a (moved c.L q t))
              (V3.sub (moved c.L q t) a) ((n : ℝ) * p.dr)).Finite) ∧
        z[s]? = some (crystalRDF pf.y c.atoms.length (factor lookup sites) mask c.L (equivPos c) W ((n : ℝ) * p.dr) /
          (atoms sites * fAverage lookup sites ^ 2)) := by
  intro k mask
  set l := rlimits p ripples tails with hl
  set N := c.atoms.length with hN
  set O := equivPos c with hO
  obtain ⟨ts, hnd, hcov, hspec⟩ := crystal_genSpec c hL he hne _ _ _ hgen
  rw [← hN, ← hO] at hcov hspec
  have hhead : ∀ i < N, (O i).headD V3.zero ∈ O i := fun i hi => headD_mem _ _ (hS.ne i hi)
  -- finiteness of the sums over pairs in range
  have hfin : ∀ (φ : ℝ → ℝ → ℝ) (i j : Nat), i < N → j < N → ∀ a ∈ O i,
      (Orbit c.L (O j) ∩ Function.support fun x => (fun d w => if GoodDist ⟨V3.zero, l.clo * p.dr, l.chi * p.dr⟩ d then φ d w else 0) (V3.distance x a) (W i j a x)).Finite := by
    intro φ i j hi hj a ha
    refine orbit_finite c.L (O j) ts _ fun q hq t ht => ?_
    beta_reduce at ht
    refine hcov i j a q t hi hj ha hq ?_
    by_contra hx
    exact ht (if_neg hx)
  -- sums over bonds
  have hsum : ∀ (g : Nat → Nat → Bond → ℝ) (i j : Nat), i < N → j < N →
      ((orbitBonds c.L N O (l.clo * p.dr) (l.chi * p.dr) ts i j).map (g i j)).sum =
      orbitSum c.L (O j) fun x =>
        if GoodDist ⟨(O i).headD V3.zero, l.clo * p.dr, l.chi * p.dr⟩ (V3.distance x ((O i).headD V3.zero)) then
          g i j ⟨j, x, V3.sub x ((O i).headD V3.zero), V3.distance x ((O i).headD V3.zero)⟩ else 0 :=
    fun g i j hi hj => orbitBonds_sum c.L N O _ _ ts hnd i j hi hj
      (fun q hq t hd => hcov i j _ q t hi hj (hhead i hi) hq hd) (g i j)
  have hsym : ∀ (φ : ℝ → ℝ → ℝ) (i j : Nat),
      ((O i).length : ℝ) * ((orbitBonds c.L N O (l.clo * p.dr) (l.chi * p.dr) ts i j).map
        fun b => φ b.distance (width i j b)).sum =
      ((O j).length : ℝ) * ((orbitBonds c.L N O (l.clo * p.dr) (l.chi * p.dr) ts j i).map
        fun b => φ b.distance (width j i b)).sum := by
    intro φ i j
    by_cases hij : i < N ∧ j < N
    · obtain ⟨hi, hj⟩ := hij
      rw [hsum (fun i j b => φ b.distance (width i j b)) i j hi hj,
        hsum (fun i j b => φ b.distance (width i j b)) j i hj hi]
      have key : ∀ i j : Nat, i < N → j < N → (orbitSum c.L (O j) fun x =>
          if GoodDist ⟨(O i).headD V3.zero, l.clo * p.dr, l.chi * p.dr⟩ (V3.distance x ((O i).headD V3.zero)) then
            φ (V3.distance x ((O i).headD V3.zero)) (width i j ⟨j, x, V3.sub x ((O i).headD V3.zero),
              V3.distance x ((O i).headD V3.zero)⟩) else 0) =
          orbitSum c.L (O j) fun x => (fun d w => if GoodDist ⟨V3.zero, l.clo * p.dr, l.chi * p.dr⟩ d then φ d w else 0)
            (V3.distance x ((O i).headD V3.zero)) (W i j ((O i).headD V3.zero) x) := by
        intro i j hi hj
        refine orbitSum_congr c.L (O j) _ _ fun x hx => ?_
        have := hw i hi j hj x hx
        unfold bondOf at this
        rw [this]
        rfl
      rw [key i j hi hj, key j i hj hi]
      exact orbit_balance c.L hL N O W hS i j hi hj (fun d w => if GoodDist ⟨V3.zero, l.clo * p.dr, l.chi * p.dr⟩ d then φ d w else 0) (hfin φ i j hi hj) (hfin φ j i hj hi)
    · have e1 : orbitBonds c.L N O (l.clo * p.dr) (l.chi * p.dr) ts i j = [] := if_neg hij
      have e2 : orbitBonds c.L N O (l.clo * p.dr) (l.chi * p.dr) ts j i = [] := if_neg fun h => hij ⟨h.2, h.1⟩
      rw [e1, e2]
      simp
  -- the generator on all sites
  let gen1 : Limits → Gen Bond := fun l' i sel => if i < N ∧ ∀ j ∈ sel, j < N then gen l' i sel else
    sel.flatMap fun j => (orbitBonds c.L N O (l.clo * p.dr) (l.chi * p.dr) ts i j).map fun b => (j, b)
  have hg1 : evalGen p ripples tails pf width k
      (fun i => ((O i).length : ℝ)) mask sites.length gen =
      evalGen p ripples tails pf width k
      (fun i => ((O i).length : ℝ)) mask sites.length gen1 := by
    unfold evalGen basicTrace
    simp only
    rw [basicLoop_congr (gen (rlimits p ripples tails)) (gen1 (rlimits p ripples tails)) _ _ _ _ _ _ ?_ _
      (fun i hi => List.mem_range.1 hi)]
    intro i sel hi hsel
    rw [hcnt] at hi hsel
    exact (if_pos ⟨hi, hsel⟩).symm
  have hspec1 : GenSpec (gen1 l) (orbitBonds c.L N O (l.clo * p.dr) (l.chi * p.dr) ts) := by
    intro i sel
    by_cases h : i < N ∧ ∀ j ∈ sel, j < N
    · have e : gen1 l i sel = gen l i sel := if_pos h
      rw [e]
      exact hspec i sel h.1 h.2
    · have e : gen1 l i sel = sel.flatMap fun j =>
        (orbitBonds c.L N O (l.clo * p.dr) (l.chi * p.dr) ts i j).map fun b => (j, b) := if_neg h
      rw [e]
  have hev := evalGen_eq p ripples tails ok pf width k
    (fun i => ((O i).length : ℝ)) mask sites.length gen1
    (orbitBonds c.L N O (l.clo * p.dr) (l.chi * p.dr) ts) (fun i j => Mask.mask_symmetric m i j)
    (by
      have e : (fun i j => (orbitBonds c.L N O (l.clo * p.dr) (l.chi * p.dr) ts i j).filter
          fun b => inRange p.dr (rlimits p ripples tails) ⟨b.distance, 0, 0⟩) =
          orbitBonds c.L N O (l.clo * p.dr) (l.chi * p.dr) ts := by
        funext i j; exact orbitBonds_filter c.L N O p.dr l ts i j
      rw [e]; exact hspec1)
    (by
      intro φ i j
      have := hsym φ i j
      rw [← orbitBonds_filter c.L N O p.dr l ts i j, ← orbitBonds_filter c.L N O p.dr l ts j i] at this
      exact this)
  rw [hg1, hev, hcnt]
  have hbd : Bounded pf tails (pairPeaks N mask (orbitBonds c.L N O (l.clo * p.dr) (l.chi * p.dr) ts)
      (mkPeak k width fun i => ((O i).length : ℝ))) := by
    have key : ∀ pk ∈ pairPeaks N mask (orbitBonds c.L N O (l.clo * p.dr) (l.chi * p.dr) ts)
        (mkPeak k width fun i => ((O i).length : ℝ)),
        ∃ i j a x s, i < N ∧ j < N ∧ a ∈ O i ∧ x ∈ Orbit c.L (O j) ∧
          1 / 2 ^ 26 < V3.norm (V3.sub x a) ∧ pk = ⟨V3.norm (V3.sub x a), W i j a x, s⟩ := by
      intro pk h
      unfold pairPeaks at h
      simp only [List.mem_flatMap, List.mem_range] at h
      obtain ⟨i, hi, j, hj, h⟩ := h
      split at h
      · rw [List.mem_map] at h
        obtain ⟨b, hb, rfl⟩ := h
        obtain ⟨-, -, q, hq, t, hd, rfl⟩ := orbitBonds_mem _ _ _ _ _ _ _ _ _ hb
        refine ⟨i, j, (O i).headD V3.zero, moved c.L q t, k.sfSite i * k.sfSite j * ((O i).length : ℝ), hi, hj, hhead i hi, mem_orbit c.L _ q hq t, hd.2.2, ?_⟩
        unfold mkPeak
        have := hw i hi j hj _ (mem_orbit c.L _ q hq t)
        unfold bondOf at this
        rw [this]
        rfl
      · simp at h
    refine ⟨?_, ?_, ?_, ?_⟩
    all_goals
      intro pk h
      obtain ⟨i, j, a, x, s, hi, hj, ha, hx, hd, rfl⟩ := key pk h
    · exact (hb i j a x _ hi hj ha hx rfl hd).1
    · exact (hb i j a x _ hi hj ha hx rfl hd).2.1
    · exact (hb i j a x _ hi hj ha hx rfl hd).2.2
    · exact (pos_of_far hd).le
  obtain ⟨z, z1, z2, z3⟩ := rdf_complete p ripples tails k.rdfScale pf _ ok hfit hbd
  refine ⟨z, z1, z2, fun s n hk hn => ?_⟩
  have hmem : ((n : ℝ) * p.dr) ∈ rgrid p.rmin p.rmax p.dr := List.mem_of_getElem? hk
  have hsf : ∀ i, k.sfSite i = factor lookup sites i := fun i => sfSite_factor lookup m.dflt m.inv sites i
  have hout : ∀ i j a x, i < N → j < N → a ∈ O i → x ∈ Orbit c.L (O j) →
      ¬ GoodDist ⟨a, l.clo * p.dr, l.chi * p.dr⟩ (V3.distance x a) →
      pairTerm pf.y (factor lookup sites i * factor lookup sites j) (W i j a x) (V3.sub x a) ((n : ℝ) * p.dr) = 0 :=
    fun i j a x hi hj ha hx hd => pairTerm_out p ripples tails ok hfit pf _ _ _ n hmem hn
      (fun h => hb i j a x _ hi hj ha hx rfl h) hd
  constructor
  · intro i j a q hi hj ha hq
    refine Set.Finite.subset (Finset.finite_toSet ts.toFinset) ?_
    intro t ht
    rw [Function.mem_support] at ht
    rw [Finset.mem_coe, List.mem_toFinset]
    refine hcov i j a q t hi hj ha hq ?_
    by_contra hx
    exact ht (hout i j a _ hi hj ha (mem_orbit c.L _ q hq t) hx)
  · rw [z3 s n hk hn, rdfScale_mul]
    congr 2
    unfold fullSum crystalRDF
    rw [pairPeaks_sum]
    refine Finset.sum_congr rfl fun i hi => Finset.sum_congr rfl fun j hj => ?_
    rw [Finset.mem_range] at hi hj
    congr 1
    let ψ : ℝ → ℝ → ℝ := fun d w => if GoodDist ⟨V3.zero, l.clo * p.dr, l.chi * p.dr⟩ d then
      factor lookup sites i * factor lookup sites j * (pf.y ((n : ℝ) * p.dr - d) w * ((n : ℝ) * p.dr / d)) else 0
    have hψ : ∀ a ∈ O i, ∀ x ∈ Orbit c.L (O j), ψ (V3.distance x a) (W i j a x) =
        pairTerm pf.y (factor lookup sites i * factor lookup sites j) (W i j a x) (V3.sub x a) ((n : ℝ) * p.dr) := by
      intro a ha x hx
      by_cases hd : GoodDist ⟨V3.zero, l.clo * p.dr, l.chi * p.dr⟩ (V3.distance x a)
      · have e : pairTerm pf.y (factor lookup sites i * factor lookup sites j) (W i j a x) (V3.sub x a) ((n : ℝ) * p.dr) =
            factor lookup sites i * factor lookup sites j *
              (pf.y ((n : ℝ) * p.dr - V3.distance x a) (W i j a x) * ((n : ℝ) * p.dr / V3.distance x a)) := if_pos hd.2.2
        rw [e]
        exact if_pos hd
      · rw [hout i j a x hi hj ha hx hd]
        exact if_neg hd
    have hmult := orbit_mult c.L hL N O W hS i j hi hj ψ (hfin (fun d w =>
      factor lookup sites i * factor lookup sites j * (pf.y ((n : ℝ) * p.dr - d) w * ((n : ℝ) * p.dr / d))) i j hi hj)
    have e1 : ((O i).map fun a => ((O j).map fun q => ∑ᶠ t : ℤ × ℤ × ℤ, pairTerm pf.y
        (factor lookup sites i * factor lookup sites j) (W i j a (moved c.L q t)) (V3.sub (moved c.L q t) a)
          ((n : ℝ) * p.dr)).sum).sum = ((O i).map fun a => orbitSum c.L (O j) fun x => ψ (V3.distance x a) (W i j a x)).sum := by
      congr 1
      refine List.map_congr_left fun a ha => ?_
      unfold orbitSum
      congr 1
      refine List.map_congr_left fun q hq => ?_
      congr 1
      funext t
      exact (hψ a ha _ (mem_orbit c.L _ q hq t)).symm
    rw [e1, hmult, hsum (fun i j b => peakAt pf p.dr (mkPeak k width
      (fun i => ((O i).length : ℝ)) i j b) n) i j hi hj]
    unfold orbitSum
    rw [← List.sum_map_mul_left]
    congr 1
    refine List.map_congr_left fun q hq => ?_
    refine Eq.trans (finsum_congr fun t => ?_) (smul_finsum ((O i).length : ℝ) _).symm
    beta_reduce
    rw [hψ _ (hhead i hi) _ (mem_orbit c.L _ q hq t), smul_eq_mul]
    by_cases hgd : GoodDist ⟨(O i).headD V3.zero, l.clo * p.dr, l.chi * p.dr⟩ (V3.distance (moved c.L q t) ((O i).headD V3.zero))
    · rw [if_pos hgd]
      unfold mkPeak
      have hw' := hw i hi j hj _ (mem_orbit c.L _ q hq t)
      unfold bondOf at hw'
      rw [hw']
      have := peakAt_pairTerm pf p.dr (V3.sub (moved c.L q t) ((O i).headD V3.zero))
        (W i j ((O i).headD V3.zero) (moved c.L q t)) (k.sfSite i * k.sfSite j * ((O i).length : ℝ)) hgd.2.2 n
      refine this.trans ?_
      rw [hsf, hsf]
      unfold pairTerm
      have h2 : 1 / 2 ^ 26 < V3.norm (V3.sub (moved c.L q t) ((O i).headD V3.zero)) := hgd.2.2
      rw [if_pos h2, if_pos h2]
      ring
    · rw [if_neg hgd, hout i j _ _ hi hj (hhead i hi) (mem_orbit c.L _ q hq t) hgd, mul_zero]

end Verif.PDFCache
