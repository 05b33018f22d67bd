import Verif.Props.PDFEndToEnd
import Verif.Props.Periodic
import Mathlib.Algebra.BigOperators.Finprod
/-
C60 for periodic structures: `getRDF` after `eval` is the pair sum over the atoms of the cell and all lattice
translations.
-/
set_option linter.unusedSectionVars false
namespace Verif.PDFCache
open Verif.PDFGrid Verif.Eval Verif.R3 Verif.BondGen Verif.Lattice Verif.Points Verif.Periodic

/-- The lattice translation by `t` cells. -/
noncomputable def shift (L : Lat) (t : ℤ × ℤ × ℤ) : V3 := L.cartesian (tripVec t)

/-- The vector from atom `i` to the image of atom `j` displaced by `t`. -/
noncomputable def imageVec (L : Lat) (xyz : Nat → V3) (i j : Nat) (t : ℤ × ℤ × ℤ) : V3 :=
  V3.sub (V3.add (xyz j) (shift L t)) (xyz i)

/-- Specification: the pair sum over the atoms at `xyz` and all lattice translations (a sum with finitely many
non-zero terms). -/
noncomputable def latticeRDF (y : ℝ → ℝ → ℝ) (n : Nat) (f : Nat → ℝ) (mask : Nat → Nat → Bool) (L : Lat)
    (xyz : Nat → V3) (W : Nat → Nat → V3 → ℝ) (r : ℝ) : ℝ :=
  ∑ i ∈ Finset.range n, ∑ j ∈ Finset.range n,
    if mask i j = true then
      ∑ᶠ t : ℤ × ℤ × ℤ, pairTerm y (f i * f j) (W i j (imageVec L xyz i j t)) (imageVec L xyz i j t) r
    else 0

/-- `gen` is a generator of the periodic structure with lattice `L` and atoms `xyz`, brought to the limits `lo` and
`hi` by any calls, with any bond data left from earlier use (PeriodicStructureAdapter.cpp:137-233). -/
def IsPeriodicGen (L : Lat) (xyz : Nat → V3) (lo hi : ℝ) (gen : Gen Bond) : Prop :=
  ∀ i sel, ∃ (a b : ℝ) (calls : List PCall) (old : Cur) (bonds : List Bond),
    (calls.foldl (PGen.call L) ⟨a, b, none⟩).rmin = lo ∧ (calls.foldl (PGen.call L) ⟨a, b, none⟩).rmax = hi ∧
    PeriodicBonds L xyz (calls.foldl (PGen.call L) ⟨a, b, none⟩) i sel old bonds ∧
    gen i sel = bonds.map fun b => (b.site1, b)

/-- There is such a generator for all lattices, atoms and limits. -/
theorem periodicGen_exists (L : Lat) (xyz : Nat → V3) (lo hi : ℝ) : ∃ gen, IsPeriodicGen L xyz lo hi gen := by
  have h : ∀ i sel, ∃ bonds, PeriodicBonds L xyz ⟨lo, hi, none⟩ i sel ⟨⟨0, 0, 0⟩, ⟨0, 0, 0⟩, 0⟩ bonds :=
    fun i sel => (periodic_bonds_unique L xyz ⟨lo, hi, none⟩ i sel _).exists
  choose f hf using h
  exact ⟨fun i sel => (f i sel).map fun b => (b.site1, b), fun i sel =>
    ⟨lo, hi, [], _, f i sel, rfl, rfl, hf i sel, rfl⟩⟩

/-- The bonds from `i` to the images of `j` by the translations `ts`, in the range of the generator. -/
noncomputable def imageBonds (L : Lat) (xyz : Nat → V3) (lo hi : ℝ) (ts : List (ℤ × ℤ × ℤ)) (i j : Nat) : List Bond :=
  ts.flatMap fun t => specBond ⟨L.ucvCartesian (xyz i), lo, hi⟩ j (V3.add (shift L t) (L.ucvCartesian (xyz j)))

theorem flatMap_swap {α β γ : Type} (as : List α) (bs : List β) (f : α → β → List γ) :
    (as.flatMap fun a => bs.flatMap fun b => f a b).Perm (bs.flatMap fun b => as.flatMap fun a => f a b) := by
  induction bs with
  | nil => simp
  | cons b bs ih =>
    simp only [List.flatMap_cons]
    exact (List.flatMap_append_perm as (fun a => f a b) (fun a => bs.flatMap fun b => f a b)).symm.trans
      (ih.append_left _)

/-- A periodic generator meets the contract of a bond generator for a fixed list of translations without repetition
that contains all translations giving a bond in range. -/
theorem periodic_genSpec (L : Lat) (hL : Reachable L) (xyz : Nat → V3) (lo hi : ℝ) (gen : Gen Bond)
    (hg : IsPeriodicGen L xyz lo hi gen) :
    ∃ ts : List (ℤ × ℤ × ℤ), ts.Nodup ∧
      (∀ t i j, GoodDist ⟨L.ucvCartesian (xyz i), lo, hi⟩ (imageBond L xyz i (t, j)).distance → t ∈ ts) ∧
      GenSpec gen (imageBonds L xyz lo hi ts) := by
  obtain ⟨l, hl, hu⟩ := sphere_terminates (lo - L.ucMaxDiagonalLength) (hi + L.ucMaxDiagonalLength) (latPar L)
  refine ⟨l.headD (0, 0, 0) :: l.tail, ?_, ?_, ?_⟩
  · have := sphere_nodup _ _ _ (latPar_proper L hL) l hl
    cases l with
    | nil => simp
    | cons a l => simpa using this
  · intro t i j hd
    have : t ∈ l := sphere_covers L hL lo hi l hl (ucvFractional (L.fractional (xyz j)))
      (ucvFractional (L.fractional (xyz i))) (ucvFractional_range _) (ucvFractional_range _) t hd
    cases l with
    | nil => simp at this
    | cons a l => simpa using this
  · intro i sel
    obtain ⟨a, b, calls, old, bonds, h1, h2, ⟨lo', hi', l', hs, hv, rfl⟩, hgen⟩ := hg i sel
    have hcur := sphere_current L a b calls
    simp only at hcur
    generalize calls.foldl (PGen.call L) ⟨a, b, none⟩ = g at *
    subst h1 h2
    rw [hcur] at hs
    simp only [Option.some.injEq, Prod.mk.injEq] at hs
    obtain ⟨rfl, rfl⟩ := hs
    have : l' = l := hu l' hv
    subst this
    rw [hgen, per_loop_exact, pts_cases, List.flatMap_map, List.map_flatMap]
    have e : ∀ t : ℤ × ℤ × ℤ, (sel.flatMap fun j => specBond ⟨L.ucvCartesian (xyz i), g.rmin, g.rmax⟩ j
        (V3.add (L.cartesian (tripVec t)) (L.ucvCartesian (xyz j)))).map (fun b => (b.site1, b)) =
        sel.flatMap fun j => (specBond ⟨L.ucvCartesian (xyz i), g.rmin, g.rmax⟩ j
        (V3.add (L.cartesian (tripVec t)) (L.ucvCartesian (xyz j)))).map fun b => (j, b) := by
      intro t
      rw [List.map_flatMap]
      congr 1
      funext j
      unfold specBond
      split <;> simp
    simp only [e]
    refine (flatMap_swap _ _ _).trans (List.Perm.of_eq ?_)
    congr 1
    funext j
    unfold imageBonds shift
    rw [List.map_flatMap]

open Classical in
/-- A sum over the image bonds as a sum over all translations. -/
theorem imageBonds_sum (L : Lat) (xyz : Nat → V3) (lo hi : ℝ) (ts : List (ℤ × ℤ × ℤ)) (hn : ts.Nodup) (i j : Nat)
    (hc : ∀ t, GoodDist ⟨L.ucvCartesian (xyz i), lo, hi⟩ (imageBond L xyz i (t, j)).distance → t ∈ ts)
    (g : Bond → ℝ) :
    ((imageBonds L xyz lo hi ts i j).map g).sum =
      ∑ᶠ t : ℤ × ℤ × ℤ, if GoodDist ⟨L.ucvCartesian (xyz i), lo, hi⟩ (imageBond L xyz i (t, j)).distance
        then g (imageBond L xyz i (t, j)) else 0 := by
  rw [finsum_eq_sum_of_support_subset (s := ts.toFinset)]
  · rw [List.sum_toFinset _ hn]
    unfold imageBonds
    rw [sum_flatMap_map]
    congr 1
    refine List.map_congr_left fun t _ => ?_
    have e : specBond ⟨L.ucvCartesian (xyz i), lo, hi⟩ j (V3.add (shift L t) (L.ucvCartesian (xyz j))) =
        if GoodDist ⟨L.ucvCartesian (xyz i), lo, hi⟩ (imageBond L xyz i (t, j)).distance then
          [imageBond L xyz i (t, j)] else [] := rfl
    rw [e]
    split <;> simp
  · intro t ht
    rw [Function.mem_support] at ht
    rw [Finset.mem_coe, List.mem_toFinset]
    by_contra hx
    exact ht (if_neg fun h => hx (hc t h))

theorem imageBonds_filter (L : Lat) (xyz : Nat → V3) (dr : ℝ) (l : Limits) (ts : List (ℤ × ℤ × ℤ)) (i j : Nat) :
    (imageBonds L xyz ((l.clo : ℝ) * dr) ((l.chi : ℝ) * dr) ts i j).filter
      (fun b => inRange dr l ⟨b.distance, 0, 0⟩) = imageBonds L xyz ((l.clo : ℝ) * dr) ((l.chi : ℝ) * dr) ts i j := by
  rw [List.filter_eq_self]
  intro b hb
  unfold imageBonds at hb
  rw [List.mem_flatMap] at hb
  obtain ⟨t, -, h⟩ := hb
  unfold specBond at h
  split at h
  · next hd =>
    rw [List.mem_singleton] at h
    subst h
    unfold inRange
    rw [decide_eq_true_eq]
    exact ⟨hd.1, hd.2.1⟩
  · simp at h

/-- The vector to the image of the wrapped atoms. -/
noncomputable def wrapVec (L : Lat) (xyz : Nat → V3) (i j : Nat) (t : ℤ × ℤ × ℤ) : V3 :=
  V3.sub (V3.add (shift L t) (L.ucvCartesian (xyz j))) (L.ucvCartesian (xyz i))

theorem wrapVec_neg (L : Lat) (xyz : Nat → V3) (i j : Nat) (t : ℤ × ℤ × ℤ) :
    wrapVec L xyz j i (-t) = V3.sub V3.zero (wrapVec L xyz i j t) := by
  unfold wrapVec shift
  ext <;> simp [V3.sub, V3.add, V3.zero, Lat.cartesian, tripVec, M3.vecMul, V3.dot, M3.c0, M3.c1, M3.c2] <;> ring

theorem norm_neg (v : V3) : V3.norm (V3.sub V3.zero v) = V3.norm v := by
  unfold V3.norm V3.dot V3.sub V3.zero; congr 1; ring

/-- With atoms that are wrapped exactly, the images of the wrapped atoms are the images of the given atoms, in another
order. -/
theorem wrap_equiv (L : Lat) (hL : Reachable L) (xyz : Nat → V3) (hx : ∀ i, Unsnapped L (xyz i)) (i j : Nat) :
    ∃ e : (ℤ × ℤ × ℤ) ≃ (ℤ × ℤ × ℤ), ∀ t, wrapVec L xyz i j t = imageVec L xyz i j (e t) := by
  have hk : ∀ i, ∃ k : ℤ × ℤ × ℤ, L.ucvCartesian (xyz i) = V3.sub (xyz i) (L.cartesian (tripVec k)) := by
    intro i
    obtain ⟨a, b, c, _, _, _, _, _, he⟩ := ucvCartesian_translation L hL (xyz i)
    exact ⟨(a, b, c), he (hx i)⟩
  obtain ⟨ki, hi⟩ := hk i
  obtain ⟨kj, hj⟩ := hk j
  refine ⟨Equiv.addRight (ki - kj), fun t => ?_⟩
  unfold wrapVec imageVec shift
  rw [hi, hj]
  simp only [Equiv.coe_addRight]
  ext <;> simp [V3.sub, V3.add, Lat.cartesian, tripVec, M3.vecMul, V3.dot, M3.c0, M3.c1, M3.c2] <;> ring

/-- Terms of bonds outside the calculation range vanish at the reported grid points. -/
theorem pairTerm_out (p : Par ℝ) (ripples tails : ℝ) (ok : Ok p ripples tails) (hfit : ripples + tails ≤ p.maxext)
    (pf : Prof ℝ) (ff w : ℝ) (v : V3) (n : ℤ) (hmem : ((n : ℝ) * p.dr) ∈ rgrid p.rmin p.rmax p.dr)
    (h3 : (rlimits p ripples tails).clo = 0 ∨ p.rmin - ripples + p.dr ≤ (n : ℝ) * p.dr)
    (hb : 1 / 2 ^ 26 < V3.norm v →
      -tails ≤ pf.lo w ∧ pf.hi w ≤ tails ∧ ∀ x, (x ≤ pf.lo w ∨ pf.hi w ≤ x) → pf.y x w = 0)
    (hout : ¬ (((rlimits p ripples tails).clo : ℝ) * p.dr ≤ V3.norm v ∧
      V3.norm v ≤ ((rlimits p ripples tails).chi : ℝ) * p.dr ∧ 1 / 2 ^ 26 < V3.norm v)) :
    pairTerm pf.y ff w v ((n : ℝ) * p.dr) = 0 := by
  unfold pairTerm
  split
  · next hd =>
    obtain ⟨b1, b2, b3⟩ := hb hd
    have hne : rgrid p.rmin p.rmax p.dr ≠ [] := fun e => by rw [e] at hmem; simp at hmem
    obtain ⟨share, -, -, -, -, -, -, -, -, -, q2, q3, -⟩ := calc_range p ripples tails ok hne
    rw [min_eq_right hfit] at q2 q3
    obtain ⟨n', e, -, g2⟩ := ((rgrid_exact p.rmin p.rmax p.dr ok.step).1 _).1 hmem
    have hrip := ok.rip
    have : pf.y ((n : ℝ) * p.dr - V3.norm v) w = 0 := by
      apply b3
      by_cases h1 : ((rlimits p ripples tails).clo : ℝ) * p.dr ≤ V3.norm v
      · have h2 : ¬ V3.norm v ≤ ((rlimits p ripples tails).chi : ℝ) * p.dr := fun h2 => hout ⟨h1, h2, hd⟩
        left
        rw [not_le] at h2
        linarith
      · right
        rw [not_le] at h1
        have hv := pos_of_far hd
        rcases q2 with q2 | q2
        · rw [q2] at h1; simp at h1; linarith
        · rcases h3 with h3 | h3
          · rw [h3] at h1; simp at h1; linarith
          · linarith
    rw [this]; ring
  · rfl

open Classical in
/-- C60 for periodic structures. `getRDF` after `eval`: at every grid point the pair sum over the atoms of the cell and
all lattice translations divided by N⟨f⟩², for every reachable lattice, any history of the bond generator, every mask,
peak width model and profile that vanishes outside its bounds.  The atoms must not lie within the tolerance of 2^-26
below a cell face (C15), and the grid point must be one step inside the extended range (C47). -/
theorem rdf_periodic (lookup : String → ℝ) (m : Mask.State) (sites : List Site) (L : Lat) (hL : Reachable L)
    (xyz : Nat → V3) (hx : ∀ i, Unsnapped L (xyz i))
    (p : Par ℝ) (ripples tails : ℝ) (ok : Ok p ripples tails) (hfit : ripples + tails ≤ p.maxext) (pf : Prof ℝ)
    (W : Nat → Nat → V3 → ℝ) (hW : EvenWidth W)
    (hb : ∀ i j t w, i < sites.length → j < sites.length → w = W i j (imageVec L xyz i j t) →
      1 / 2 ^ 26 < V3.norm (imageVec L xyz i j t) →
      -tails ≤ pf.lo w ∧ pf.hi w ≤ tails ∧ ∀ x, (x ≤ pf.lo w ∨ pf.hi w ≤ x) → pf.y x w = 0)
    (gen : Limits → Gen Bond)
    (hgen : IsPeriodicGen L xyz ((rlimits p ripples tails).clo * p.dr) ((rlimits p ripples tails).chi * p.dr)
      (gen (rlimits p ripples tails))) :
    let c := cacheOf lookup m.dflt m.inv sites
    let mask : Nat → Nat → Bool := fun i j => Mask.getPairMask m i j
    ∃ z, (evalGen p ripples tails pf (fun i j b => W i j b.r01) c (fun _ => 1) mask sites.length gen).getRDF
        c.rdfScale = some z ∧
      z.length = (rgrid p.rmin p.rmax p.dr).length ∧
      ∀ (k : Nat) (n : ℤ), (rgrid p.rmin p.rmax p.dr)[k]? = some ((n : ℝ) * p.dr) →
        ((rlimits p ripples tails).clo = 0 ∨ p.rmin - ripples + p.dr ≤ (n : ℝ) * p.dr) →
        (∀ i j, i < sites.length → j < sites.length → (Function.support fun t : ℤ × ℤ × ℤ =>
          pairTerm pf.y (factor lookup sites i * factor lookup sites j) (W i j (imageVec L xyz i j t))
            (imageVec L xyz i j t) ((n : ℝ) * p.dr)).Finite) ∧
        z[k]? = some (latticeRDF pf.y sites.length (factor lookup sites) mask L xyz W ((n : ℝ) * p.dr) /
          (atoms sites * fAverage lookup sites ^ 2)) := by
  intro c mask
  set l := rlimits p ripples tails with hl
  obtain ⟨ts, hnd, hcov, hspec⟩ := periodic_genSpec L hL xyz _ _ _ hgen
  have hbond : ∀ i j t, (imageBond L xyz i (t, j)).r01 = wrapVec L xyz i j t ∧
      (imageBond L xyz i (t, j)).distance = V3.norm (wrapVec L xyz i j t) := fun i j t => ⟨rfl, rfl⟩
  -- symmetry of the sums
  have hsym : ∀ (φ : ℝ → ℝ → ℝ) (i j : Nat),
      ((imageBonds L xyz (l.clo * p.dr) (l.chi * p.dr) ts i j).map fun b => φ b.distance (W i j b.r01)).sum =
      ((imageBonds L xyz (l.clo * p.dr) (l.chi * p.dr) ts j i).map fun b => φ b.distance (W j i b.r01)).sum := by
    intro φ i j
    rw [imageBonds_sum _ _ _ _ _ hnd _ _ (fun t => hcov t i j), imageBonds_sum _ _ _ _ _ hnd _ _ (fun t => hcov t j i)]
    rw [← finsum_comp_equiv (Equiv.neg (ℤ × ℤ × ℤ)) (f := fun t => if GoodDist ⟨L.ucvCartesian (xyz j), l.clo * p.dr, l.chi * p.dr⟩
      (imageBond L xyz j (t, i)).distance then φ (imageBond L xyz j (t, i)).distance (W j i (imageBond L xyz j (t, i)).r01) else 0)]
    congr 1
    funext t
    simp only [Equiv.neg_apply, (hbond _ _ _).1, (hbond _ _ _).2, wrapVec_neg, norm_neg]
    rw [hW i j (wrapVec L xyz i j t)]
    rfl
  have hev := evalGen_eq p ripples tails ok pf (fun i j b => W i j b.r01) c (fun _ => 1) mask sites.length gen
    (imageBonds L xyz (l.clo * p.dr) (l.chi * p.dr) ts) (fun i j => Mask.mask_symmetric m i j)
    (by
      have e : (fun i j => (imageBonds L xyz (l.clo * p.dr) (l.chi * p.dr) ts i j).filter
          fun b => inRange p.dr (rlimits p ripples tails) ⟨b.distance, 0, 0⟩) =
          imageBonds L xyz (l.clo * p.dr) (l.chi * p.dr) ts := by
        funext i j; exact imageBonds_filter L xyz p.dr l ts i j
      rw [e]; exact hspec)
    (by
      intro φ i j
      have := hsym φ i j
      rw [← imageBonds_filter L xyz p.dr l ts i j, ← imageBonds_filter L xyz p.dr l ts j i] at this
      rw [one_mul, one_mul]
      exact this)
  rw [hev]
  -- the bounds for the wrapped vectors
  have hb' : ∀ i j t, i < sites.length → j < sites.length → 1 / 2 ^ 26 < V3.norm (wrapVec L xyz i j t) →
      -tails ≤ pf.lo (W i j (wrapVec L xyz i j t)) ∧ pf.hi (W i j (wrapVec L xyz i j t)) ≤ tails ∧
      ∀ x, (x ≤ pf.lo (W i j (wrapVec L xyz i j t)) ∨ pf.hi (W i j (wrapVec L xyz i j t)) ≤ x) →
        pf.y x (W i j (wrapVec L xyz i j t)) = 0 := by
    intro i j t hi hj hd
    obtain ⟨e, he⟩ := wrap_equiv L hL xyz hx i j
    rw [he t] at hd ⊢
    exact hb i j (e t) _ hi hj rfl hd
  have hbd : Bounded pf tails (pairPeaks sites.length mask (imageBonds L xyz (l.clo * p.dr) (l.chi * p.dr) ts)
      (mkPeak c (fun i j b => W i j b.r01) fun _ => 1)) := by
    have key : ∀ pk ∈ pairPeaks sites.length mask (imageBonds L xyz (l.clo * p.dr) (l.chi * p.dr) ts)
        (mkPeak c (fun i j b => W i j b.r01) fun _ => 1), ∃ i j t, i < sites.length ∧ j < sites.length ∧
          1 / 2 ^ 26 < V3.norm (wrapVec L xyz i j t) ∧
          pk = ⟨V3.norm (wrapVec L xyz i j t), W i j (wrapVec L xyz i j t), c.sfSite i * c.sfSite j * 1⟩ := by
      intro pk h
      unfold pairPeaks at h
      simp only [List.mem_flatMap, List.mem_range] at h
      obtain ⟨i, hi, j, hj, h⟩ := h
      split at h
      · rw [List.mem_map] at h
        obtain ⟨b, hb, rfl⟩ := h
        unfold imageBonds at hb
        rw [List.mem_flatMap] at hb
        obtain ⟨t, -, hb⟩ := hb
        unfold specBond at hb
        split at hb
        · next hd =>
          rw [List.mem_singleton] at hb
          subst hb
          exact ⟨i, j, t, hi, hj, hd.2.2, rfl⟩
        · simp at hb
      · simp at h
    refine ⟨?_, ?_, ?_, ?_⟩
    all_goals
      intro pk h
      obtain ⟨i, j, t, hi, hj, hd, rfl⟩ := key pk h
    · exact (hb' i j t hi hj hd).1
    · exact (hb' i j t hi hj hd).2.1
    · exact (hb' i j t hi hj hd).2.2
    · exact (pos_of_far hd).le
  obtain ⟨z, z1, z2, z3⟩ := rdf_complete p ripples tails c.rdfScale pf _ ok hfit hbd
  refine ⟨z, z1, z2, fun k n hk hn => ?_⟩
  have hmem : ((n : ℝ) * p.dr) ∈ rgrid p.rmin p.rmax p.dr := List.mem_of_getElem? hk
  have hsf : ∀ i, c.sfSite i = factor lookup sites i := fun i => sfSite_factor lookup m.dflt m.inv sites i
  constructor
  · intro i j hi hj
    obtain ⟨e, he⟩ := wrap_equiv L hL xyz hx i j
    refine Set.Finite.subset ((Finset.finite_toSet ts.toFinset).image e) ?_
    intro t ht
    rw [Function.mem_support] at ht
    refine ⟨e.symm t, ?_, by simp⟩
    rw [Finset.mem_coe, List.mem_toFinset]
    have hv := he (e.symm t)
    rw [Equiv.apply_symm_apply] at hv
    refine hcov _ i j ?_
    by_contra hx'
    refine ht (pairTerm_out p ripples tails ok hfit pf _ _ _ n hmem hn (fun hd => hb i j t _ hi hj rfl hd) ?_)
    rw [← hv]
    exact hx'
  · rw [z3 k n hk hn, rdfScale_mul]
    congr 2
    unfold fullSum latticeRDF
    rw [pairPeaks_sum]
    refine Finset.sum_congr rfl fun i hi => Finset.sum_congr rfl fun j hj => ?_
    rw [Finset.mem_range] at hi hj
    congr 1
    rw [imageBonds_sum _ _ _ _ _ hnd _ _ (fun t => hcov t i j)]
    obtain ⟨e, he⟩ := wrap_equiv L hL xyz hx i j
    rw [← finsum_comp_equiv e (f := fun t => pairTerm pf.y (factor lookup sites i * factor lookup sites j)
      (W i j (imageVec L xyz i j t)) (imageVec L xyz i j t) ((n : ℝ) * p.dr))]
    congr 1
    funext t
    simp only [← he]
    by_cases hgd : GoodDist ⟨L.ucvCartesian (xyz i), l.clo * p.dr, l.chi * p.dr⟩ (imageBond L xyz i (t, j)).distance
    · rw [if_pos hgd, ← hsf, ← hsf, ← peakAt_pairTerm pf p.dr (wrapVec L xyz i j t) _ _ hgd.2.2 n]
      unfold mkPeak
      rw [mul_one]
      rfl
    · rw [if_neg hgd]
      symm
      exact pairTerm_out p ripples tails ok hfit pf _ _ _ n hmem hn (fun hd => hb' i j t hi hj hd) hgd

/-- The hypotheses of `rdf_periodic` hold for Na at the origin and Cl in the centre of a monoclinic cell with a box
profile and a constant width. -/
example (L0 : Lat) :
    let L := create L0 2 3 4 90 60 90
    let xyz : Nat → V3 := fun i => if i = 0 then V3.zero else L.cartesian ⟨1 / 2, 1 / 2, 1 / 2⟩
    Reachable L ∧ (∀ i, Unsnapped L (xyz i)) ∧ Ok exPar 0 (1 / 2) ∧ (0 : ℝ) + 1 / 2 ≤ exPar.maxext ∧
    (∀ i j t w, i < exSites.length → j < exSites.length →
      w = (fun _ _ _ => (1 / 2 : ℝ)) i j (imageVec L xyz i j t) → 1 / 2 ^ 26 < V3.norm (imageVec L xyz i j t) →
      -(1 / 2) ≤ exProf.lo w ∧ exProf.hi w ≤ 1 / 2 ∧
        ∀ x, (x ≤ exProf.lo w ∨ exProf.hi w ≤ x) → exProf.y x w = 0) ∧
    ∃ gen : Limits → Gen Bond, IsPeriodicGen L xyz ((rlimits exPar 0 (1 / 2)).clo * exPar.dr)
      ((rlimits exPar 0 (1 / 2)).chi * exPar.dr) (gen (rlimits exPar 0 (1 / 2))) := by
  intro L xyz
  obtain ⟨h1, h2, -⟩ := ex_monoclinic L0 ⟨⟨0, 0, 0⟩, ⟨0, 0, 0⟩, 0⟩
  refine ⟨h1, h2, ⟨?_, ?_, ?_, ?_, ?_⟩, ?_, ?_, ?_⟩
  · norm_num [exPar]
  · norm_num [exPar]
  · norm_num [exPar]
  · norm_num
  · norm_num
  · norm_num [exPar]
  · intro i j t w _ _ hw _
    subst hw
    refine ⟨by norm_num [exProf], by norm_num [exProf], fun x hx => ?_⟩
    unfold exProf at hx ⊢
    simp only at hx ⊢
    rw [if_neg]
    rw [abs_lt]
    rintro ⟨h1, h2⟩
    rcases hx with h | h <;> linarith
  · obtain ⟨g, hg⟩ := periodicGen_exists L xyz ((rlimits exPar 0 (1 / 2)).clo * exPar.dr)
      ((rlimits exPar 0 (1 / 2)).chi * exPar.dr)
    exact ⟨fun _ => g, hg⟩

end Verif.PDFCache
