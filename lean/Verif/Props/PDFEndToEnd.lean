import Verif.Props.PDFCache
import Verif.Props.PDFGrid
import Verif.Props.BondGen
import Verif.Props.Evaluator
import Verif.Props.PeakShape
/-
C60: the result of a complete evaluation.  `getRDF` and `getPDF` after `eval` of a finite structure are the pair
sum over the atoms of the structure.
-/
set_option linter.unusedSectionVars false
namespace Verif.PDFCache
open Verif.PDFGrid Verif.Eval Verif.R3 Verif.BondGen

/-! ### From calls of addPairContribution to the list of peaks -/

/-- All peaks of the ordered pairs of sites that the mask lets through; `all i j` are the bonds from `i` to `j`. -/
def pairPeaks (n : Nat) (use : Nat → Nat → Bool) (all : Nat → Nat → List Bond) (mk : Nat → Nat → Bond → Peak ℝ) :
    List (Peak ℝ) :=
  (List.range n).flatMap fun i => (List.range n).flatMap fun j => if use i j then (all i j).map (mk i j) else []

/-- The peak of a bond from `i` to `j` in the sum over ordered pairs. -/
noncomputable def mkPeak (c : Cache) (width : Nat → Nat → Bond → ℝ) (mult : Nat → ℝ) (i j : Nat) (b : Bond) : Peak ℝ :=
  ⟨b.distance, width i j b, c.sfSite i * c.sfSite j * mult i⟩

/-- What a peak adds at step `n`. -/
noncomputable def term (pf : Prof ℝ) (dr : ℝ) (l : Limits) (n : ℤ) (pk : Peak ℝ) : ℝ :=
  if l.clo ≤ n ∧ n < l.chi ∧ covers pf dr pk n then peakAt pf dr pk n else 0

theorem term_scale (pf : Prof ℝ) (dr : ℝ) (l : Limits) (n : ℤ) (pk : Peak ℝ) (s : ℝ) :
    term pf dr l n ⟨pk.dist, pk.fwhm, pk.scale * s⟩ = s * term pf dr l n pk := by
  have hc : covers pf dr ⟨pk.dist, pk.fwhm, pk.scale * s⟩ n ↔ covers pf dr pk n := Iff.rfl
  have hp : peakAt pf dr ⟨pk.dist, pk.fwhm, pk.scale * s⟩ n = s * peakAt pf dr pk n := by
    unfold peakAt; simp only; ring
  unfold term
  rw [hp]
  simp only [hc]
  split
  · rfl
  · rw [mul_zero]

theorem sum_flatMap_map {α β : Type} (l : List α) (g : α → List β) (f : β → ℝ) :
    ((l.flatMap g).map f).sum = (l.map fun a => ((g a).map f).sum).sum := by
  induction l with
  | nil => rfl
  | cons a l ih => rw [List.flatMap_cons, List.map_append, List.sum_append, ih, List.map_cons, List.sum_cons]

/-- A sum over the peaks of the ordered pairs is the double sum over the sites. -/
theorem pairPeaks_sum (n : Nat) (use : Nat → Nat → Bool) (all : Nat → Nat → List Bond)
    (mk : Nat → Nat → Bond → Peak ℝ) (f : Peak ℝ → ℝ) :
    ((pairPeaks n use all mk).map f).sum =
      ∑ i ∈ Finset.range n, ∑ j ∈ Finset.range n,
        if use i j = true then ((all i j).map fun b => f (mk i j b)).sum else 0 := by
  unfold pairPeaks
  rw [sum_flatMap_map, finset_sum_range]
  congr 1
  refine List.map_congr_left fun i _ => ?_
  rw [sum_flatMap_map, finset_sum_range]
  congr 1
  refine List.map_congr_left fun j _ => ?_
  by_cases h : use i j = true
  · rw [if_pos h, if_pos h, List.map_map]; rfl
  · rw [if_neg h, if_neg h]; rfl

theorem list_eq_of_at (l : Limits) (u v : List ℝ) (h1 : (u.length : ℤ) = l.count) (h2 : (v.length : ℤ) = l.count)
    (h : ∀ n : ℤ, at_ l.clo u n = at_ l.clo v n) : u = v := by
  apply List.ext_getElem (by omega)
  intro k hu hv
  have := h (l.clo + k)
  unfold at_ at this
  rw [if_pos (by omega), if_pos (by omega)] at this
  have e : (l.clo + (k : ℤ) - l.clo).toNat = k := by omega
  rw [e, List.getD_eq_getElem?_getD, List.getD_eq_getElem?_getD, List.getElem?_eq_getElem hu,
    List.getElem?_eq_getElem hv] at this
  exact this

/-- The contributions made by the serial evaluator over half of the pairs give the same value as the peaks of all
ordered pairs in range, provided that pairs contribute equally in both directions. -/
theorem eval_eq_pairs (pf : Prof ℝ) (dr : ℝ) (l : Limits) (hl : 0 ≤ l.count) (c : Cache)
    (width : Nat → Nat → Bond → ℝ) (mult : Nat → ℝ) (rule : Bool) (gen : Gen Bond) (all : Nat → Nat → List Bond)
    (use : Nat → Nat → Bool) (cnt : Nat)
    (hg : GenSpec gen fun i j => (all i j).filter fun b => inRange dr l ⟨b.distance, 0, 0⟩)
    (hu : ∀ i j, use i j = use j i)
    (hs : ∀ (φ : ℝ → ℝ → ℝ) (i j : Nat),
      mult i * (((all i j).filter fun b => inRange dr l ⟨b.distance, 0, 0⟩).map fun b => φ b.distance (width i j b)).sum =
      mult j * (((all j i).filter fun b => inRange dr l ⟨b.distance, 0, 0⟩).map fun b => φ b.distance (width j i b)).sum) :
    valueOf pf dr l ((basicTrace rule gen false use cnt 0 1).map (peakOf c width mult)) =
      evalPeaks pf dr l (pairPeaks cnt use all (mkPeak c width mult)) := by
  have hlen : ((List.replicate l.count.toNat (0 : ℝ)).length : ℤ) = l.count := by
    rw [List.length_replicate]; omega
  apply list_eq_of_at l
  · unfold valueOf; rw [length_foldl_addPeak]; exact hlen
  · unfold evalPeaks; rw [length_foldl_addPeak]; exact hlen
  intro n
  unfold valueOf evalPeaks
  rw [at_foldl_addPeak _ _ _ _ _ hlen, at_foldl_addPeak _ _ _ _ _ hlen]
  congr 1
  change (((basicTrace rule gen false use cnt 0 1).map (peakOf c width mult)).map (term pf dr l n)).sum =
    (((pairPeaks cnt use all (mkPeak c width mult)).filter (inRange dr l)).map (term pf dr l n)).sum
  -- left side: the sum over the trace
  have e1 : (((basicTrace rule gen false use cnt 0 1).map (peakOf c width mult)).map (term pf dr l n)).sum =
      traceSum (fun i j b => term pf dr l n (mkPeak c width mult i j b)) (basicTrace rule gen false use cnt 0 1) := by
    unfold traceSum
    rw [List.map_map]
    congr 1
    refine List.map_congr_left fun t _ => ?_
    rw [zsmul_eq_mul]
    exact term_scale pf dr l n (mkPeak c width mult t.i0 t.i1 t.bond) (t.scale : ℝ)
  rw [e1, basic_value _ rule gen _ hg false use ?_ cnt]
  · -- right side: the double sum
    have e2 : (((pairPeaks cnt use all (mkPeak c width mult)).filter (inRange dr l)).map (term pf dr l n)).sum =
        ((pairPeaks cnt use all (mkPeak c width mult)).map
          fun pk => if inRange dr l pk = true then term pf dr l n pk else 0).sum := by
      generalize pairPeaks cnt use all (mkPeak c width mult) = ps
      induction ps with
      | nil => rfl
      | cons p ps ih =>
        rw [List.filter_cons, List.map_cons, List.sum_cons, ← ih]
        by_cases h : inRange dr l p = true
        · rw [if_pos h, if_pos h, List.map_cons, List.sum_cons]
        · rw [if_neg h, if_neg h, zero_add]
    rw [e2, pairPeaks_sum]
    unfold pairSum
    refine Finset.sum_congr rfl fun i _ => Finset.sum_congr rfl fun j _ => ?_
    congr 1
    beta_reduce
    generalize all i j = bs
    induction bs with
    | nil => rfl
    | cons b bs ih =>
      rw [List.filter_cons, List.map_cons, List.sum_cons, ← ih]
      have he : inRange dr l (mkPeak c width mult i j b) = inRange dr l ⟨b.distance, 0, 0⟩ := rfl
      rw [he]
      by_cases h : inRange dr l (⟨b.distance, 0, 0⟩ : Peak ℝ) = true
      · rw [if_pos h, if_pos h, List.map_cons, List.sum_cons]
      · rw [if_neg h, if_neg h, zero_add]
  · intro _ i j
    refine ⟨hu i j, ?_⟩
    have key : ∀ i j : Nat, (((all i j).filter fun b => inRange dr l ⟨b.distance, 0, 0⟩).map
        fun b => term pf dr l n (mkPeak c width mult i j b)).sum =
        c.sfSite i * c.sfSite j * (mult i * (((all i j).filter fun b => inRange dr l ⟨b.distance, 0, 0⟩).map
          fun b => (fun d w => term pf dr l n ⟨d, w, 1⟩) b.distance (width i j b)).sum) := by
      intro i j
      rw [← mul_assoc, ← List.sum_map_mul_left]
      congr 1
      refine List.map_congr_left fun b _ => ?_
      have := term_scale pf dr l n ⟨b.distance, width i j b, 1⟩ (c.sfSite i * c.sfSite j * mult i)
      rw [one_mul] at this
      exact this
    rw [key i j, key j i, hs (fun d w => term pf dr l n ⟨d, w, 1⟩) i j]
    ring

/-- An evaluation is the evaluation of the peaks of all ordered pairs. -/
theorem evalGen_eq (p : Par ℝ) (ripples tails : ℝ) (ok : Ok p ripples tails) (pf : Prof ℝ)
    (width : Nat → Nat → Bond → ℝ) (c : Cache) (mult : Nat → ℝ) (use : Nat → Nat → Bool) (cnt : Nat)
    (gen : Limits → Gen Bond) (all : Nat → Nat → List Bond) (hu : ∀ i j, use i j = use j i)
    (hg : GenSpec (gen (rlimits p ripples tails))
      fun i j => (all i j).filter fun b => inRange p.dr (rlimits p ripples tails) ⟨b.distance, 0, 0⟩)
    (hs : ∀ (φ : ℝ → ℝ → ℝ) (i j : Nat),
      mult i * (((all i j).filter fun b => inRange p.dr (rlimits p ripples tails) ⟨b.distance, 0, 0⟩).map
        fun b => φ b.distance (width i j b)).sum =
      mult j * (((all j i).filter fun b => inRange p.dr (rlimits p ripples tails) ⟨b.distance, 0, 0⟩).map
        fun b => φ b.distance (width j i b)).sum) :
    evalGen p ripples tails pf width c mult use cnt gen =
      evaluated p ripples tails pf (pairPeaks cnt use all (mkPeak c width mult)) := by
  obtain ⟨o1, o2, o3, -⟩ := limits_order p ripples tails ok
  unfold evalGen evaluated
  simp only
  congr 1
  exact eval_eq_pairs _ _ _ (by unfold Limits.count; omega) _ _ _ _ _ _ _ _ hg hu hs

/-- The factors kept by the calculator after an evaluation, as functions of the site number. -/
noncomputable def factor (lookup : String → ℝ) (sites : List Site) (i : Nat) : ℝ :=
  (sites.map fun s => lookup s.typ * s.occ).getD i 0

theorem sfSite_factor (lookup : String → ℝ) (dflt : Bool) (inv : List (Int × Int)) (sites : List Site) (i : Nat) :
    (cacheOf lookup dflt inv sites).sfSite i = factor lookup sites i := by
  unfold Cache.sfSite cacheOf factor
  simp only
  rw [sfLoop_eq]

theorem rdfScale_mul (lookup : String → ℝ) (dflt : Bool) (inv : List (Int × Int)) (sites : List Site) (x : ℝ) :
    x * (cacheOf lookup dflt inv sites).rdfScale = x / (atoms sites * fAverage lookup sites ^ 2) := by
  rw [(rdfScale_spec lookup dflt inv sites).2.2]
  by_cases h : atoms sites = 0 ∨ fAverage lookup sites = 0
  · rw [if_pos h, mul_zero]
    have : atoms sites * fAverage lookup sites ^ 2 = 0 := by rcases h with h | h <;> rw [h] <;> simp
    rw [this, div_zero]
  · rw [if_neg h, mul_one_div]

/-! ### Specification of the pair sum -/

/-- What two atoms joined by the vector `v` add to the RDF at `r`: product of their factors, times the profile `y`
at `r - |v|` for the width `w`, times `r/|v|`; nothing for coincident atoms. -/
noncomputable def pairTerm (y : ℝ → ℝ → ℝ) (ff w : ℝ) (v : V3) (r : ℝ) : ℝ :=
  if 1 / 2 ^ 26 < V3.norm v then ff * (y (r - V3.norm v) w * (r / V3.norm v)) else 0

/-- The pair sum over the atoms at `pos` with factors `f` and widths `W i j v`, for the pairs that the mask lets
through. -/
noncomputable def pairRDF (y : ℝ → ℝ → ℝ) (n : Nat) (f : Nat → ℝ) (mask : Nat → Nat → Bool) (pos : Nat → V3)
    (W : Nat → Nat → V3 → ℝ) (r : ℝ) : ℝ :=
  ∑ i ∈ Finset.range n, ∑ j ∈ Finset.range n,
    if mask i j = true then
      pairTerm y (f i * f j) (W i j (V3.sub (pos j) (pos i))) (V3.sub (pos j) (pos i)) r
    else 0

/-- The width of a bond does not depend on its direction. -/
def EvenWidth (W : Nat → Nat → V3 → ℝ) : Prop := ∀ i j v, W i j v = W j i (V3.sub V3.zero v)

/-- A peak added at step `k` is the term of the specification. -/
theorem peakAt_pairTerm (pf : Prof ℝ) (dr : ℝ) (v : V3) (w s : ℝ) (h : 1 / 2 ^ 26 < V3.norm v) (k : ℤ) :
    peakAt pf dr ⟨V3.norm v, w, s⟩ k = pairTerm pf.y s w v ((k : ℝ) * dr) := by
  unfold peakAt pairTerm
  rw [if_pos h]
  simp only
  have hd : V3.norm v ≠ 0 := by
    have : (0 : ℝ) < 1 / 2 ^ 26 := by positivity
    exact (this.trans h).ne'
  congr 2
  field_simp
  ring

/-! ### Finite structures -/

/-- The bond from `i` to `j`, without a range. -/
noncomputable def freeBond (pos : Nat → V3) (i j : Nat) : List Bond :=
  if sqrtEps < V3.distance (pos j) (pos i) then
    [⟨j, pos j, V3.sub (pos j) (pos i), V3.distance (pos j) (pos i)⟩] else []

theorem specBond_filter (pos : Nat → V3) (dr : ℝ) (l : Limits) (i j : Nat) :
    specBond ⟨pos i, (l.clo : ℝ) * dr, (l.chi : ℝ) * dr⟩ j (pos j) =
      (freeBond pos i j).filter fun b => inRange dr l ⟨b.distance, 0, 0⟩ := by
  unfold specBond freeBond GoodDist
  by_cases h : sqrtEps < V3.distance (pos j) (pos i)
  · rw [if_pos h, List.filter_cons]
    unfold inRange
    simp only [decide_eq_true_eq, List.filter_nil]
    by_cases h2 : (l.clo : ℝ) * dr ≤ V3.distance (pos j) (pos i) ∧ V3.distance (pos j) (pos i) ≤ (l.chi : ℝ) * dr
    · rw [if_pos h2, if_pos ⟨h2.1, h2.2, h⟩]
    · rw [if_neg h2, if_neg fun h3 => h2 ⟨h3.1, h3.2.1⟩]
  · rw [if_neg h, if_neg fun h3 => h h3.2.2]; rfl

theorem distance_comm (a b : V3) : V3.distance a b = V3.distance b a := by
  unfold V3.distance V3.norm V3.sub V3.dot
  congr 1; ring

theorem sub_swap (a b : V3) : V3.sub a b = V3.sub V3.zero (V3.sub b a) := by
  ext <;> simp [V3.sub, V3.zero]

/-- An evaluation of a finite structure is the evaluation of the peaks of all ordered pairs. -/
theorem evalFinite_eq (p : Par ℝ) (ripples tails : ℝ) (ok : Ok p ripples tails) (pf : Prof ℝ)
    (W : Nat → Nat → V3 → ℝ) (hW : EvenWidth W) (c : Cache) (use : Nat → Nat → Bool) (sites : List Site) (pos : Nat → V3)
    (hu : ∀ i j, use i j = use j i) :
    evalFinite p ripples tails pf (fun i j b => W i j b.r01) c use sites pos =
      evaluated p ripples tails pf
        (pairPeaks sites.length use (freeBond pos) (mkPeak c (fun i j b => W i j b.r01) fun _ => 1)) := by
  unfold evalFinite
  apply evalGen_eq p ripples tails ok _ _ _ _ _ _ _ _ hu
  · have := base_loop_genSpec pos ((rlimits p ripples tails).clo * p.dr : ℝ) ((rlimits p ripples tails).chi * p.dr : ℝ)
      (fun _ _ => ⟨⟨0, 0, 0⟩, ⟨0, 0, 0⟩, 0⟩)
    intro i sel
    have h := this i sel
    simp only [specBond_filter] at h
    exact h
  · intro φ i j
    rw [one_mul, one_mul]
    unfold freeBond
    rw [distance_comm (pos i) (pos j)]
    by_cases h : sqrtEps < V3.distance (pos j) (pos i)
    · rw [if_pos h, if_pos h, List.filter_cons, List.filter_cons]
      simp only [List.filter_nil]
      split
      · simp only [List.map_cons, List.map_nil, List.sum_cons, List.sum_nil, add_zero]
        rw [hW i j, ← sub_swap]
      · rfl
    · rw [if_neg h, if_neg h]; rfl

theorem fullSum_pairs (pf : Prof ℝ) (dr : ℝ) (n : Nat) (use : Nat → Nat → Bool) (pos : Nat → V3) (c : Cache)
    (W : Nat → Nat → V3 → ℝ) (k : ℤ) :
    fullSum pf dr (pairPeaks n use (freeBond pos) (mkPeak c (fun i j b => W i j b.r01) fun _ => 1)) k =
      pairRDF pf.y n c.sfSite use pos W ((k : ℝ) * dr) := by
  unfold fullSum pairRDF
  rw [pairPeaks_sum]
  refine Finset.sum_congr rfl fun i _ => Finset.sum_congr rfl fun j _ => ?_
  congr 1
  unfold freeBond
  by_cases h : sqrtEps < V3.distance (pos j) (pos i)
  · rw [if_pos h]
    simp only [List.map_cons, List.map_nil, List.sum_cons, List.sum_nil, add_zero]
    unfold mkPeak
    rw [mul_one]
    exact peakAt_pairTerm pf dr (V3.sub (pos j) (pos i)) _ _ h k
  · rw [if_neg h]
    unfold pairTerm
    rw [if_neg (show ¬ 1 / 2 ^ 26 < V3.norm (V3.sub (pos j) (pos i)) from h)]
    rfl

/-- The peaks of a finite structure come from pairs of sites at a distance. -/
theorem mem_pairPeaks (n : Nat) (use : Nat → Nat → Bool) (pos : Nat → V3) (c : Cache) (W : Nat → Nat → V3 → ℝ)
    (pk : Peak ℝ) (h : pk ∈ pairPeaks n use (freeBond pos) (mkPeak c (fun i j b => W i j b.r01) fun _ => 1)) :
    ∃ i j, i < n ∧ j < n ∧ 1 / 2 ^ 26 < V3.norm (V3.sub (pos j) (pos i)) ∧
      pk = ⟨V3.norm (V3.sub (pos j) (pos i)), W i j (V3.sub (pos j) (pos i)), c.sfSite i * c.sfSite j * 1⟩ := by
  unfold pairPeaks at h
  simp only [List.mem_flatMap, List.mem_range] at h
  obtain ⟨i, hi, j, hj, h⟩ := h
  split at h
  · rw [List.mem_map] at h
    obtain ⟨b, hb, rfl⟩ := h
    unfold freeBond at hb
    split at hb
    · next hd =>
      rw [List.mem_singleton] at hb
      subst hb
      exact ⟨i, j, hi, hj, hd, rfl⟩
    · simp at hb
  · simp at h

theorem pos_of_far {x : ℝ} (h : 1 / 2 ^ 26 < x) : 0 < x :=
  lt_trans (by positivity : (0 : ℝ) < 1 / 2 ^ 26) h

/-- C60. `getRDF` after `eval` of a finite structure: at every grid point the pair sum over the atoms divided by
N⟨f⟩², for every structure, mask, peak width model and profile that vanishes outside its bounds.
(`clo = 0` or a distance of one step from the lower end of the extended range excludes the grid points at which the
code can miss a bond, see C47.) -/
theorem rdf_finite (lookup : String → ℝ) (m : Mask.State) (sites : List Site) (pos : Nat → V3)
    (p : Par ℝ) (ripples tails : ℝ) (ok : Ok p ripples tails) (hfit : ripples + tails ≤ p.maxext) (pf : Prof ℝ)
    (W : Nat → Nat → V3 → ℝ) (hW : EvenWidth W)
    (hb : ∀ i j, i < sites.length → j < sites.length → ∀ w, w = W i j (V3.sub (pos j) (pos i)) →
      1 / 2 ^ 26 < V3.norm (V3.sub (pos j) (pos i)) →
      -tails ≤ pf.lo w ∧ pf.hi w ≤ tails ∧ ∀ x, (x ≤ pf.lo w ∨ pf.hi w ≤ x) → pf.y x w = 0) :
    let c := cacheOf lookup m.dflt m.inv sites
    ∃ z, (evalFinite p ripples tails pf (fun i j b => W i j b.r01) c
        (fun i j => Mask.getPairMask m i j) sites pos).getRDF c.rdfScale = some z ∧
      z.length = (rgrid p.rmin p.rmax p.dr).length ∧
      ∀ (k : Nat) (n : ℤ), (rgrid p.rmin p.rmax p.dr)[k]? = some ((n : ℝ) * p.dr) →
        ((rlimits p ripples tails).clo = 0 ∨ p.rmin - ripples + p.dr ≤ (n : ℝ) * p.dr) →
        z[k]? = some (pairRDF pf.y sites.length (factor lookup sites) (fun i j => Mask.getPairMask m i j) pos W
          ((n : ℝ) * p.dr) / (atoms sites * fAverage lookup sites ^ 2)) := by
  intro c
  rw [evalFinite_eq p ripples tails ok pf W hW c _ sites pos fun i j => Mask.mask_symmetric m i j]
  have hbd : Bounded pf tails (pairPeaks sites.length (fun i j => Mask.getPairMask m i j) (freeBond pos)
      (mkPeak c (fun i j b => W i j b.r01) fun _ => 1)) := by
    refine ⟨?_, ?_, ?_, ?_⟩
    all_goals
      intro pk h
      obtain ⟨i, j, hi, hj, hd, rfl⟩ := mem_pairPeaks _ _ _ _ _ _ h
    · exact (hb i j hi hj _ rfl hd).1
    · exact (hb i j hi hj _ rfl hd).2.1
    · exact (hb i j hi hj _ rfl hd).2.2
    · exact (pos_of_far hd).le
  obtain ⟨z, z1, z2, z3⟩ := rdf_complete p ripples tails c.rdfScale pf _ ok hfit hbd
  refine ⟨z, z1, z2, fun k n hk hn => ?_⟩
  have hsf : c.sfSite = factor lookup sites := funext fun i => sfSite_factor lookup m.dflt m.inv sites i
  rw [z3 k n hk hn, fullSum_pairs, hsf, rdfScale_mul]

/-- C60 for the cropped Gaussian profile, in any state reached by `setPrecision` calls: with the range extension
computed by the calculator from the largest width nothing is lost. -/
theorem rdf_cropped (lookup : String → ℝ) (m : Mask.State) (sites : List Site) (pos : Nat → V3)
    (p : Par ℝ) (ripples maxfwhm : ℝ) (c : Peak.Cropped) (hc : c.Reach) (W : Nat → Nat → V3 → ℝ) (hW : EvenWidth W)
    (hw : ∀ i j, i < sites.length → j < sites.length → 1 / 2 ^ 26 < V3.norm (V3.sub (pos j) (pos i)) →
      0 < W i j (V3.sub (pos j) (pos i)) ∧ W i j (V3.sub (pos j) (pos i)) ≤ maxfwhm) :
    let tails := Peak.extFromPeakTails c.g.lo c.g.hi maxfwhm
    let ca := cacheOf lookup m.dflt m.inv sites
    Ok p ripples tails → ripples + tails ≤ p.maxext →
    ∃ z, (evalFinite p ripples tails c.prof (fun i j b => W i j b.r01) ca
        (fun i j => Mask.getPairMask m i j) sites pos).getRDF ca.rdfScale = some z ∧
      z.length = (rgrid p.rmin p.rmax p.dr).length ∧
      ∀ (k : Nat) (n : ℤ), (rgrid p.rmin p.rmax p.dr)[k]? = some ((n : ℝ) * p.dr) →
        ((rlimits p ripples tails).clo = 0 ∨ p.rmin - ripples + p.dr ≤ (n : ℝ) * p.dr) →
        z[k]? = some (pairRDF c.prof.y sites.length (factor lookup sites) (fun i j => Mask.getPairMask m i j) pos W
          ((n : ℝ) * p.dr) / (atoms sites * fAverage lookup sites ^ 2)) := by
  intro tails ca ok hfit
  refine rdf_finite lookup m sites pos p ripples tails ok hfit c.prof W hW ?_
  intro i j hi hj w e hd
  have := Peak.cropped_bounded c hc maxfwhm [⟨V3.norm (V3.sub (pos j) (pos i)), w, 1⟩]
    (by intro pk h; rw [List.mem_singleton] at h; subst h; rw [e]; exact hw i j hi hj hd)
    (by intro pk h; rw [List.mem_singleton] at h; subst h; exact (pos_of_far hd).le)
  exact ⟨this.lo _ (List.mem_singleton.2 rfl), this.hi _ (List.mem_singleton.2 rfl),
    this.zero _ (List.mem_singleton.2 rfl)⟩

/-- C60 for the Gaussian profile, in any state reached by `setPrecision` calls: the terms left out change a point by
at most the precision times the sum of the peak heights. -/
theorem rdf_gauss (lookup : String → ℝ) (m : Mask.State) (sites : List Site) (pos : Nat → V3)
    (p : Par ℝ) (ripples maxfwhm : ℝ) (g : Peak.Gauss) (hg : g.Reach) (h1 : g.precision < 1)
    (W : Nat → Nat → V3 → ℝ) (hW : EvenWidth W)
    (hw : ∀ i j, i < sites.length → j < sites.length → 1 / 2 ^ 26 < V3.norm (V3.sub (pos j) (pos i)) →
      0 < W i j (V3.sub (pos j) (pos i)) ∧ W i j (V3.sub (pos j) (pos i)) ≤ maxfwhm) :
    let tails := Peak.extFromPeakTails g.lo g.hi maxfwhm
    let ca := cacheOf lookup m.dflt m.inv sites
    let mask : Nat → Nat → Bool := fun i j => Mask.getPairMask m i j
    Ok p ripples tails → ripples + tails ≤ p.maxext →
    ∃ z, (evalFinite p ripples tails g.prof (fun i j b => W i j b.r01) ca mask sites pos).getRDF ca.rdfScale = some z ∧
      z.length = (rgrid p.rmin p.rmax p.dr).length ∧
      ∀ (k : Nat) (n : ℤ), (rgrid p.rmin p.rmax p.dr)[k]? = some ((n : ℝ) * p.dr) →
        ((rlimits p ripples tails).clo = 0 ∨ p.rmin - ripples + p.dr ≤ (n : ℝ) * p.dr) →
        ∃ x, z[k]? = some x ∧
          |x - pairRDF Peak.gaussY sites.length (factor lookup sites) mask pos W ((n : ℝ) * p.dr) /
            (atoms sites * fAverage lookup sites ^ 2)| ≤
          g.precision * pairRDF (fun _ w => Peak.gaussY 0 w) sites.length (fun i => |factor lookup sites i|) mask pos W
            |(n : ℝ) * p.dr| / |atoms sites * fAverage lookup sites ^ 2| := by
  intro tails ca mask ok hfit
  have hu : ∀ i j, mask i j = mask j i := fun i j => Mask.mask_symmetric m i j
  rw [evalFinite_eq p ripples tails ok g.prof W hW ca _ sites pos hu]
  set ps := pairPeaks sites.length mask (freeBond pos) (mkPeak ca (fun i j b => W i j b.r01) fun _ => 1) with hps
  obtain ⟨z, z1, z2, z3⟩ := getRDF_spec (evaluated p ripples tails g.prof ps) ripples tails ca.rdfScale ok
    (evaluated_fresh p ripples tails g.prof ps ok)
  refine ⟨z, z1, z2, fun k n hk hn => ⟨_, z3 k n hk, ?_⟩⟩
  have hd : eps < p.dr := ok.step
  have hd0 : 0 < p.dr := lt_trans eps_pos hd
  have hmem : ((n : ℝ) * p.dr) ∈ rgrid p.rmin p.rmax p.dr := List.mem_of_getElem? hk
  have hne : rgrid p.rmin p.rmax p.dr ≠ [] := fun e => by rw [e] at hmem; simp at hmem
  obtain ⟨share, -, -, -, hgr, -, -, -, -, -, -, -, -, -, -, -, -⟩ := calc_range p ripples tails ok hne
  obtain ⟨g1, g2⟩ := hgr _ hmem
  have b1 : (rlimits p ripples tails).emin ≤ n := by exact_mod_cast le_of_mul_le_mul_right g1 hd0
  have b2 : n < (rlimits p ripples tails).emax := by exact_mod_cast lt_of_mul_lt_mul_right g2 hd0.le
  have hsf : ca.sfSite = factor lookup sites := funext fun i => sfSite_factor lookup m.dflt m.inv sites i
  have herr := Peak.gauss_value_error p ripples g hg h1 maxfwhm ps
    (by intro pk h; obtain ⟨i, j, hi, hj, hdd, rfl⟩ := mem_pairPeaks _ _ _ _ _ _ h; exact hw i j hi hj hdd)
    (by intro pk h; obtain ⟨i, j, hi, hj, hdd, rfl⟩ := mem_pairPeaks _ _ _ _ _ _ h; exact pos_of_far hdd)
    ok hfit n b1 b2 hn
  have hfs : fullSum g.prof p.dr ps n =
      pairRDF Peak.gaussY sites.length (factor lookup sites) mask pos W ((n : ℝ) * p.dr) := by
    rw [hps, fullSum_pairs, hsf]; rfl
  have hsum : (ps.map fun pk => |pk.scale| * Peak.gaussY 0 pk.fwhm * |(n : ℝ) * p.dr / pk.dist|).sum =
      pairRDF (fun _ w => Peak.gaussY 0 w) sites.length (fun i => |factor lookup sites i|) mask pos W
        |(n : ℝ) * p.dr| := by
    rw [hps, pairPeaks_sum]
    unfold pairRDF
    refine Finset.sum_congr rfl fun i _ => Finset.sum_congr rfl fun j _ => ?_
    congr 1
    unfold freeBond pairTerm
    by_cases h : sqrtEps < V3.distance (pos j) (pos i)
    · rw [if_pos h, if_pos (show 1 / 2 ^ 26 < V3.norm (V3.sub (pos j) (pos i)) from h)]
      simp only [List.map_cons, List.map_nil, List.sum_cons, List.sum_nil, add_zero]
      unfold mkPeak
      simp only
      rw [mul_one, abs_mul, hsf, abs_div, mul_assoc]
      have : |V3.distance (pos j) (pos i)| = V3.norm (V3.sub (pos j) (pos i)) := abs_of_pos (pos_of_far h)
      rw [this]
    · rw [if_neg h, if_neg (show ¬ 1 / 2 ^ 26 < V3.norm (V3.sub (pos j) (pos i)) from h)]; rfl
  rw [hfs, hsum] at herr
  rw [rdfScale_mul, ← sub_div, abs_div]
  exact div_le_div_of_nonneg_right herr (abs_nonneg _)

/-- C60. `getPDF` without a Fourier transformation after the same evaluation: RDF/r plus the baseline, times the
envelopes; with the linear baseline the slope is −4π times the number density times the active fraction (C59). -/
theorem pdf_finite (lookup : String → ℝ) (m : Mask.State) (hm : Mask.Reach m) (sites : List Site) (pos : Nat → V3)
    (p : Par ℝ) (ripples tails : ℝ) (ok : Ok p ripples tails) (hfit : ripples + tails ≤ p.maxext) (pf : Prof ℝ)
    (W : Nat → Nat → V3 → ℝ) (hW : EvenWidth W) (density : ℝ) (envelope : ℝ → ℝ) (hpos : 0 < atoms sites)
    (hb : ∀ i j, i < sites.length → j < sites.length → ∀ w, w = W i j (V3.sub (pos j) (pos i)) →
      1 / 2 ^ 26 < V3.norm (V3.sub (pos j) (pos i)) →
      -tails ≤ pf.lo w ∧ pf.hi w ≤ tails ∧ ∀ x, (x ≤ pf.lo w ∨ pf.hi w ≤ x) → pf.y x w = 0) :
    let c := cacheOf lookup m.dflt m.inv sites
    let mask : Nat → Nat → Bool := fun i j => Mask.getPairMask m i j
    ∃ z, (evalFinite p ripples tails pf (fun i j b => W i j b.r01) c mask sites pos).getPDF c.rdfScale
        (fun r => c.slope density * r) envelope = some z ∧
      z.length = (rgrid p.rmin p.rmax p.dr).length ∧
      ∀ (k : Nat) (n : ℤ), (rgrid p.rmin p.rmax p.dr)[k]? = some ((n : ℝ) * p.dr) →
        ((rlimits p ripples tails).clo = 0 ∨ p.rmin - ripples + p.dr ≤ (n : ℝ) * p.dr) →
        1 / 2 ^ 26 < (n : ℝ) * p.dr →
        let r := (n : ℝ) * p.dr
        z[k]? = some ((pairRDF pf.y sites.length (factor lookup sites) mask pos W r /
            (atoms sites * fAverage lookup sites ^ 2) / r -
          4 * Real.pi * density * activeFraction mask sites * r) * envelope r) := by
  intro c mask
  obtain ⟨rdf, r1, r2, r3⟩ := rdf_finite lookup m sites pos p ripples tails ok hfit pf W hW hb
  set e := evalFinite p ripples tails pf (fun i j b => W i j b.r01) c mask sites pos with he
  have hfr : Fresh e ripples tails := by
    rw [he, evalFinite_eq p ripples tails ok pf W hW c mask sites pos fun i j => Mask.mask_symmetric m i j]
    exact evaluated_fresh _ _ _ _ _ ok
  have hpar : e.par = p := rfl
  obtain ⟨g, z, g1, z1, z2, z3⟩ := getPDF_spec e ripples tails c.rdfScale (fun r => c.slope density * r) envelope ok hfr
  obtain ⟨rdf', g', q1, q2, q3, q4⟩ := getRDFperR_spec e ripples tails c.rdfScale ok hfr
  rw [hpar] at z2 z3 q3 q4
  have e1 : rdf' = rdf := by
    have : some rdf' = some rdf := q1.symm.trans r1
    exact Option.some.inj this
  have e2 : g' = g := Option.some.inj (q2.symm.trans g1)
  subst e1 e2
  refine ⟨z, z1, z3, fun k n hk hn hr => ?_⟩
  intro r
  rw [z2, q3, List.getElem?_zipWith, hk, List.getElem?_zipWith, hk, r3 k n hk hn]
  simp only
  rw [if_pos hr, slope_spec lookup m hm sites density hpos]
  congr 1
  ring

/-- The width of the Jeong model (and of its Debye-Waller base) does not depend on the direction. -/
theorem jeong_even (q : Peak.Jeong) (U : Nat → Peak.Site) :
    EvenWidth fun i j v => q.calculate (V3.norm v) (Peak.msd (U i) (U j) v) := by
  intro i j v
  have hn : V3.norm (V3.sub V3.zero v) = V3.norm v := by
    unfold V3.norm V3.dot V3.sub V3.zero; congr 1; ring
  have hm : ∀ (U : M3) (a : Bool), Peak.meanSquareDisplacement U (V3.sub V3.zero v) a =
      Peak.meanSquareDisplacement U v a := by
    intro U a
    unfold Peak.meanSquareDisplacement
    rw [hn]
    cases a <;> simp [V3.sub, V3.zero, neg_div]
  beta_reduce
  rw [hn]
  unfold Peak.msd
  rw [hm, hm, add_comm]

/-! ### A concrete case -/

/-- A box profile. -/
noncomputable def exProf : Prof ℝ := ⟨fun w => -w, fun w => w, fun x w => if |x| < w then 1 else 0⟩

/-- Na at the origin, Cl at distance two. -/
noncomputable def exPos : Nat → V3 := fun i => ⟨2 * (i : ℝ), 0, 0⟩

/-- The parameters of the example. -/
noncomputable def exPar : Par ℝ := ⟨0, 4, 1 / 4, 10⟩

theorem exDist (i j : Nat) : V3.norm (V3.sub (exPos j) (exPos i)) = |2 * (j : ℝ) - 2 * (i : ℝ)| := by
  unfold V3.norm V3.dot V3.sub exPos
  simp only
  have : (2 * (j : ℝ) - 2 * i) * (2 * j - 2 * i) + (0 - 0) * (0 - 0) + (0 - 0) * (0 - 0) =
      (2 * (j : ℝ) - 2 * i) ^ 2 := by ring
  rw [this, Real.sqrt_sq_eq_abs]

/-- The hypotheses of `rdf_finite` and `pdf_finite` hold for Na and Cl with a constant width, and the value of the
specification at the distance of the two atoms is not zero. -/
example : Ok exPar 0 (1 / 2) ∧ (0 : ℝ) + 1 / 2 ≤ exPar.maxext ∧ EvenWidth (fun _ _ _ => (1 / 2 : ℝ)) ∧
    (∀ i j, i < exSites.length → j < exSites.length → ∀ w, w = (fun _ _ _ => (1 / 2 : ℝ)) i j (V3.sub (exPos j) (exPos i)) →
      1 / 2 ^ 26 < V3.norm (V3.sub (exPos j) (exPos i)) →
      -(1 / 2) ≤ exProf.lo w ∧ exProf.hi w ≤ 1 / 2 ∧
        ∀ x, (x ≤ exProf.lo w ∨ exProf.hi w ≤ x) → exProf.y x w = 0) ∧
    pairRDF exProf.y exSites.length (factor (fun _ => 1) exSites) (fun i j => Mask.getPairMask Mask.init i j) exPos
      (fun _ _ _ => 1 / 2) 2 / (atoms exSites * fAverage (fun _ => 1) exSites ^ 2) = 1 := by
  refine ⟨⟨?_, ?_, ?_, ?_, ?_⟩, ?_, fun _ _ _ => rfl, ?_, ?_⟩
  any_goals norm_num [exPar]
  · intro i j _ _ _
    refine ⟨by norm_num [exProf], by norm_num [exProf], fun x hx => ?_⟩
    unfold exProf at hx ⊢
    simp only at hx ⊢
    rw [if_neg]
    rw [abs_lt]
    rintro ⟨h1, h2⟩
    rcases hx with h | h <;> norm_num at h <;> linarith
  · have hm : ∀ i j : Nat, Mask.getPairMask Mask.init (i : Int) (j : Int) = true := by
      intro i j; unfold Mask.getPairMask Mask.init; simp
    unfold pairRDF pairTerm
    simp only [hm, exDist]
    have h0 : |(0 : ℝ)| = 0 := abs_zero
    norm_num [exSites, factor, atoms, fAverage, Finset.sum_range_succ, exProf]

end Verif.PDFCache
