import Verif.Model.OverlapHistory
import Verif.Props.OverlapSumGrad
import Verif.Props.BVHistory
/-! C96: overlaps after a history of calls, and from parallel jobs. -/
set_option linter.unusedSectionVars false
namespace Verif.OlpHist
open Verif.BondGen Verif.Eval Verif.Diff Verif.KindDiff Verif.Geo Verif.R3 Verif.Overlap Verif.AssocMap
open Verif.BVHist (maskIn siteMult_eq use_eq)
open Verif.Protocol (Out Err)
open scoped BigOperators

/-! ### Specification -/

/-- The last lower limit set. -/
def lastRmin : List Call → ℝ := fun cs => cs.foldl (fun r c => match c with | .setRmin x => x | _ => r) 0

/-- The last upper limit set. -/
def lastRmax : List Call → ℝ := fun cs => cs.foldl (fun r c => match c with | .setRmax x => x | _ => r) 100

/-- The last table set. -/
def lastTable : List Call → ℕ := fun cs => cs.foldl (fun r c => match c with | .setTable (some t) => t | .setTableByType (some t) => t | _ => r) 0

/-- What a call does to table `t`. -/
noncomputable def tableStep (num : List Char → Option ℝ) (t : ℕ) (r : RTable) : Call → RTable
  | .editTable u op => if u = t then tstep num r op else r
  | .setTableByType (some u) => if u = t then RTable.fresh else r
  | _ => r

/-- The content of table `t` after these calls. -/
noncomputable def tableNow (num : List Char → Option ℝ) (heap : ℕ → RTable) (t : ℕ) (cs : List Call) : RTable :=
  cs.foldl (tableStep num t) (if t = 0 then RTable.fresh else heap t)

/-- The effect of a call on the masks, structures aside. -/
def maskStep (m : Mask.State) : Call → Mask.State
  | .mask op => Mask.step m op
  | _ => m

/-- The masks after the mask calls alone. -/
def maskNow (cs : List Call) : Mask.State := cs.foldl maskStep Mask.init

/-- The last accepted CPU assignment. -/
def lastCpu : List Call → Int × Int := fun cs => cs.foldl (fun r c => match c with | .parallel i n => if n < 1 then r else (i, n) | _ => r) (0, 1)

/-- Mask calls are such that the masks do not depend on structures seen before, none contradicts an "all" type mask (C92), and the mask containers are
visited once each. -/
def Proper (num : List Char → Option ℝ) (heap : ℕ → RTable) (cs : List Call) : Prop :=
  (∀ pre op post, cs = pre ++ .mask op :: post → op.Simple (maskNow pre) ∧ op.Consistent (maskNow pre)) ∧
  (∀ pre x so td post, cs = pre ++ .setStructure x so td :: post → (Mask.Op.stru [] so td).Valid (run num (new heap) pre).mask) ∧
  (∀ pre x so td gen post, cs = pre ++ .eval x so td gen :: post → (Mask.Op.stru [] so td).Valid (run num (new heap) pre).mask)

/-- The radii of the sites in a table. -/
noncomputable def radiiIn (t : RTable) (x : RStru) : List ℝ := x.atoms.map fun a => t.radius a.atomtype

/-- The sites with their radii in the table `t`. -/
noncomputable abbrev sitesIn (t : RTable) (x : RStru) : Stru ℝ := struOf (radiiIn t x) x

/-- The results for the structure `x` with the radii of table `t`, the masks `m` and the limits `rmin`, `rmax`.
The overlap of two atoms is `olp`; sums over a site run over all its atoms. -/
structure Results (t : RTable) (m : Mask.State) (rmin rmax : ℝ) (x : RStru) (s : Obj) : Prop where
  /-- Every pair of overlapping atoms is listed from both its ends, each time once. -/
  lists : ∃ B : List (ℕ × ℕ × V3), s.sites0 x = B.map (·.1) ∧ s.sites1 x = B.map (·.2.1) ∧ s.directions x = (B.map fun b => (b.2.2.x, b.2.2.y, b.2.2.z)) ∧
    s.distances x = (B.map fun b => V3.norm b.2.2) ∧ s.overlaps x = (B.map fun b => olp (sitesIn t x) rmin rmax b.1 b.2.1 b.2.2) ∧
    ∀ F : ℕ → ℕ → V3 → ℝ, (B.map fun b => F b.1 b.2.1 b.2.2).sum = ∑ i ∈ Finset.range x.atoms.length, ∑ j ∈ Finset.range x.atoms.length,
      if maskIn m x i j = true then (geom x).sum i j (fun v => open Classical in if 0 < olp (sitesIn t x) rmin rmax i j v then F i j v else 0) else 0
  square : ∀ k < x.atoms.length, (s.siteSquareOverlaps x)[k]? = some
    ((∑ j ∈ Finset.range x.atoms.length, if maskIn m x k j = true then (sitesIn t x).occ j * squareOverlap (sitesIn t x) (geom x) rmin rmax k j else 0) / 2)
  total : s.totalSquareOverlap x = total (sitesIn t x) (geom x) (maskIn m x) rmin rmax
  mean : let atoms := ∑ i ∈ Finset.range x.atoms.length, (sitesIn t x).occ i * ((geom x).mult i : ℝ)
    s.meanSquareOverlap x = if 0 < atoms then Overlap.total (sitesIn t x) (geom x) (maskIn m x) rmin rmax / atoms else 0
  coord : ∀ k < x.atoms.length, (s.coordinations x)[k]? = some
    (∑ j ∈ Finset.range x.atoms.length, if maskIn m x k j = true then (sitesIn t x).occ j * contacts (sitesIn t x) (geom x) rmin rmax k j else 0)
  neighbors : ∀ i < x.atoms.length, (s.getNeighborSites x i).Nodup ∧
    ∀ j, j ∈ s.getNeighborSites x i ↔ j < x.atoms.length ∧ maskIn m x i j = true ∧ Touch (sitesIn t x) (geom x) rmin rmax i j
  byType : ∀ i < x.atoms.length, ∀ tp,
    (find (s.coordinationByTypes x i) tp).getD 0 = (∑ j ∈ Finset.range x.atoms.length, if maskIn m x i j = true ∧ (sitesIn t x).typ j = tp then
      (sitesIn t x).occ j * contacts (sitesIn t x) (geom x) rmin rmax i j else 0) ∧
    ((find (s.coordinationByTypes x i) tp).isSome ↔ ∃ j < x.atoms.length, maskIn m x i j = true ∧ (sitesIn t x).typ j = tp ∧ Touch (sitesIn t x) (geom x) rmin rmax i j)
  /-- The exchange of two radii, whatever the order in which the set of bonds is visited. -/
  flip : ∀ order : List ℕ → List ℕ, (∀ l, (order l).Perm l) → ∀ i < x.atoms.length, ∀ j < x.atoms.length,
    s.flipDiffTotal x order i j = some (Overlap.total (swapStru (sitesIn t x) i j) (geom x) (maskIn m x) rmin rmax - Overlap.total (sitesIn t x) (geom x) (maskIn m x) rmin rmax)
  grad : ∀ k < x.atoms.length, ∃ gx gy gz, (s.gradients x 1)[k]? = some gx ∧ (s.gradients x 2)[k]? = some gy ∧ (s.gradients x 3)[k]? = some gz ∧
    ∀ e : V3, V3.dot ⟨gx, gy, gz⟩ e = ∑ i ∈ Finset.range x.atoms.length, if maskIn m x i k = true then
      (geom x).sum i k (fun v => -2 * olp (sitesIn t x) rmin rmax i k v / V3.norm v * V3.dot v e) else 0

/-! ### The stored bonds in any order -/

/-- The bonds of an evaluation in one process. -/
noncomputable def bondsOf (st : Stru ℝ) (mask : ℕ → ℕ → Bool) (rmin rmax : ℝ) (gen : ℝ → ℝ → Gen Bond) : List (Contrib (Bnd ℝ)) :=
  basicTrace true (mapGen ovBond (gen rmin (Overlap.rmaxUsed st rmax))) true mask st.cnt 0 1

/-- What an object stores after the evaluation of `x`. -/
structure Stored (t : RTable) (m : Mask.State) (rmin rmax : ℝ) (gen : ℝ → ℝ → Gen Bond) (x : RStru) (s : Obj) : Prop where
  mv : ∃ tr, tr.Perm (bondsOf (sitesIn t x) (maskIn m x) rmin rmax gen) ∧ s.mv = evalOverlap tr
  radii : s.radii = radiiIn t x
  maxsep : s.maxsep = maxSeparation (sitesIn t x)
  nbrs : s.nbrs = freshCache ∨ s.nbrs = fillCache freshCache s.mv
  stru : s.stru = x

theorem list_eq_of_get {l l' : List ℝ} {n : ℕ} (h1 : l.length = n) (h2 : l'.length = n) (h : ∀ k < n, l[k]? = l'[k]?) : l = l' := by
  refine List.ext_getElem? fun k => ?_
  by_cases hk : k < n
  · exact h k hk
  · rw [List.getElem?_eq_none (by omega), List.getElem?_eq_none (by omega)]

section Perm
variable (st : Stru ℝ) {tr tr0 : List (Contrib (Bnd ℝ))} (hp : tr.Perm tr0)
include hp

theorem square_perm : Overlap.siteSquareOverlaps st (evalOverlap tr) = Overlap.siteSquareOverlaps st (evalOverlap tr0) := by
  obtain ⟨a, a'⟩ := siteSquareOverlaps_spec st tr
  obtain ⟨b, b'⟩ := siteSquareOverlaps_spec st tr0
  refine list_eq_of_get a b fun k hk => ?_
  rw [a' k hk, b' k hk, (hp.map _).sum_eq]

theorem total_perm : Overlap.totalSquareOverlap st (evalOverlap tr) = Overlap.totalSquareOverlap st (evalOverlap tr0) := by
  unfold Overlap.totalSquareOverlap
  rw [square_perm st hp]

theorem coord_perm (k : ℕ) (hk : k < st.cnt) : (Overlap.coordinations st (evalOverlap tr))[k]? = (Overlap.coordinations st (evalOverlap tr0))[k]? := by
  rw [coordinations_spec st tr k hk, coordinations_spec st tr0 k hk, (hp.map _).sum_eq]

theorem grad_perm (k : ℕ) (hk : k < st.cnt) (off : ℕ) (ho : off = 1 ∨ off = 2 ∨ off = 3) :
    (Overlap.gradients st (evalOverlap tr) off)[k]? = (Overlap.gradients st (evalOverlap tr0) off)[k]? := by
  obtain ⟨a1, a2, a3⟩ := gradients_spec st tr k hk
  obtain ⟨b1, b2, b3⟩ := gradients_spec st tr0 k hk
  rcases ho with rfl | rfl | rfl
  · rw [a1, b1, (hp.map _).sum_eq]
  · rw [a2, b2, (hp.map _).sum_eq]
  · rw [a3, b3, (hp.map _).sum_eq]

theorem balanced_perm (h : Balanced st tr0) : Balanced st tr := by
  intro a b hab g
  rw [(hp.map _).sum_eq, (hp.map _).sum_eq]
  exact h a b hab g

end Perm

theorem ids_eq {c : Cache} {mv : List ℝ} (h : c = freshCache ∨ c = fillCache freshCache mv) (k : ℕ) : getNeighborIds c mv k = getNeighborIds freshCache mv k := by
  rcases h with rfl | rfl
  · rfl
  · exact (neighbor_ids mv k).2

theorem cacheOK {c : Cache} {mv : List ℝ} (h : c = freshCache ∨ c = fillCache freshCache mv) : CacheOK c mv := by
  intro k idx
  rw [ids_eq h]
  exact cacheOK_fresh mv k idx

theorem sites_mult (t : RTable) (x : RStru) (i : ℕ) : (sitesIn t x).mult i = (geom x).mult i := siteMult_eq x i

theorem sites_cnt (t : RTable) (x : RStru) : (sitesIn t x).cnt = (geom x).cnt := (geom_cnt x).symm

/-- The stored bonds give the results. -/
theorem stored_results (t : RTable) (m : Mask.State) (rmin rmax : ℝ) (gen : ℝ → ℝ → Gen Bond) (x : RStru) (s : Obj) (h : Stored t m rmin rmax gen x s)
    (hok : (geom x).Ok) (hgen : ∀ lo hi, (geom x).IsGen lo hi (gen lo hi)) (hm : ∀ i j, maskIn m x i j = maskIn m x j i) : Results t m rmin rmax x s := by
  classical
  obtain ⟨⟨tr, hp, hmv⟩, hr, -, hn, -⟩ := h
  set st := sitesIn t x with hst
  have hcnt : st.cnt = (geom x).cnt := sites_cnt t x
  have hlen : st.cnt = x.atoms.length := rfl
  have hs : struOf s.radii x = st := by rw [hr]
  have hg := hgen rmin (Overlap.rmaxUsed st rmax)
  obtain ⟨bonds, hd⟩ := delivers (geom x) hok _ _ _ hg
  have he : evalStru st rmin rmax (maskIn m x) gen = evalOverlap (bondsOf st (maskIn m x) rmin rmax gen) := rfl
  have hin0 : ∀ c ∈ bondsOf st (maskIn m x) rmin rmax gen, c.i0 < st.cnt ∧ c.i1 < st.cnt := by
    intro c hc
    obtain ⟨a, ha, b, hb, -, v, -, -, h⟩ := (trace_mem (geom x) _ _ _ bonds hd (maskIn m x) fun a b c' => c.i0 = a ∧ c.i1 = b).1 ⟨c, hcnt ▸ hc, rfl, rfl⟩
    rw [h.1, h.2, hcnt]
    exact ⟨ha, hb⟩
  have hin : ∀ c ∈ tr, c.i0 < st.cnt ∧ c.i1 < st.cnt := fun c hc => hin0 c (hp.mem_iff.1 hc)
  have hvec : ∀ c ∈ tr, c.bond.d = V3.norm ⟨c.bond.x, c.bond.y, c.bond.z⟩ ∧ InRange rmin (Overlap.rmaxUsed st rmax) c.bond.d := by
    intro c hc
    obtain ⟨a, ha, b, hb, -, v, -, hr, h⟩ := (trace_mem (geom x) _ _ _ bonds hd (maskIn m x) fun a b c' => c.bond = c').1 ⟨c, hcnt ▸ hp.mem_iff.1 hc, rfl⟩
    rw [h]
    exact ⟨rfl, hr⟩
  have htot : s.totalSquareOverlap x = Overlap.total st (geom x) (maskIn m x) rmin rmax := by
    show Overlap.totalSquareOverlap (struOf s.radii x) s.mv = _
    rw [hs, hmv, total_perm st hp, ← he]
    exact total_square_overlap st (geom x) hok hcnt (maskIn m x) rmin rmax gen hg
  refine ⟨?_, ?_, htot, ?_, ?_, ?_, ?_, ?_, ?_⟩
  · obtain ⟨q1, q2, q3, q4, q5⟩ := queries_spec st tr
    have hob : ∀ c ∈ tr, olp st rmin rmax c.i0 c.i1 ⟨c.bond.x, c.bond.y, c.bond.z⟩ = overlapOf st.radius c := by
      intro c hc
      obtain ⟨h1, h2⟩ := hvec c hc
      unfold olp overlapOf
      rw [← h1]
      have h3 : InRange rmin rmax c.bond.d := ⟨h2.1, h2.2.1.trans (min_le_left _ _), h2.2.2⟩
      rw [if_pos h3]
    refine ⟨(tr.filter fun c => decide (0 < overlapOf st.radius c)).map fun c => (c.i0, c.i1, (⟨c.bond.x, c.bond.y, c.bond.z⟩ : V3)), ?_, ?_, ?_, ?_, ?_, ?_⟩
    · show Overlap.sites0 (struOf s.radii x) s.mv = _
      rw [hs, hmv, q3, List.map_map]; rfl
    · show Overlap.sites1 (struOf s.radii x) s.mv = _
      rw [hs, hmv, q4, List.map_map]; rfl
    · show Overlap.directions (struOf s.radii x) s.mv = _
      rw [hs, hmv, q5, List.map_map]; rfl
    · show Overlap.distances (struOf s.radii x) s.mv = _
      rw [hs, hmv, q2, List.map_map]
      exact List.map_congr_left fun c hc => (hvec c (List.mem_of_mem_filter hc)).1
    · show Overlap.overlaps (struOf s.radii x) s.mv = _
      rw [hs, hmv, q1, List.map_map]
      exact List.map_congr_left fun c hc => (hob c (List.mem_of_mem_filter hc)).symm
    · intro F
      rw [List.map_map]
      have e1 : ((tr.filter fun c => decide (0 < overlapOf st.radius c)).map ((fun b : ℕ × ℕ × V3 => F b.1 b.2.1 b.2.2) ∘
          fun c => (c.i0, c.i1, (⟨c.bond.x, c.bond.y, c.bond.z⟩ : V3)))).sum =
          (tr.map fun c => if 0 < max 0 (st.radius c.i0 + st.radius c.i1 - c.bond.d) then F c.i0 c.i1 ⟨c.bond.x, c.bond.y, c.bond.z⟩ else 0).sum := by
        rw [sum_filter_map]
        congr 1
        refine List.map_congr_left fun c _ => ?_
        simp only [decide_eq_true_eq]
        rfl
      rw [e1, (hp.map _).sum_eq]
      have h := trace_sum (geom x) _ _ _ bonds hd (maskIn m x) fun i j b => if 0 < max 0 (st.radius i + st.radius j - b.d) then F i j ⟨b.x, b.y, b.z⟩ else 0
      rw [← hcnt] at h
      refine h.trans (Finset.sum_congr rfl fun i hi => Finset.sum_congr rfl fun j hj => ?_)
      rw [Finset.mem_range] at hi hj
      congr 2
      funext v
      have hro := range_olp st rmin rmax i j hi hj v
      unfold Geo.cut
      by_cases h1 : InRange rmin (Overlap.rmaxUsed st rmax) (V3.norm v)
      · rw [if_pos h1]
        by_cases h2 : 0 < max 0 (st.radius i + st.radius j - V3.norm v)
        · have h3 := hro.1 ⟨h1, h2⟩
          rw [if_pos h3]
          exact if_pos h2
        · have h3 : ¬ 0 < olp st rmin rmax i j v := fun h => h2 (hro.2 h).2
          rw [if_neg h3]
          exact if_neg h2
      · have h3 : ¬ 0 < olp st rmin rmax i j v := fun h => h1 (hro.2 h).1
        rw [if_neg h1, if_neg h3]
  · intro k hk
    show (Overlap.siteSquareOverlaps (struOf s.radii x) s.mv)[k]? = _
    rw [hs, hmv, square_perm st hp, ← he]
    exact site_square_overlaps st (geom x) hok hcnt (maskIn m x) rmin rmax gen hg k hk
  · show Overlap.meanSquareOverlap (struOf s.radii x) s.mv = _
    have ha : Overlap.totalOccupancy (struOf s.radii x) = ∑ i ∈ Finset.range x.atoms.length, st.occ i * ((geom x).mult i : ℝ) := by
      unfold Overlap.totalOccupancy
      rw [Overlap.foldl_add, zero_add, ← finset_sum_range, hs]
      exact Finset.sum_congr rfl fun i _ => by rw [sites_mult]
    unfold Overlap.meanSquareOverlap
    rw [ha]
    have h2 : Overlap.totalSquareOverlap (struOf s.radii x) s.mv = Overlap.total st (geom x) (maskIn m x) rmin rmax := htot
    rw [h2]
  · intro k hk
    show (Overlap.coordinations (struOf s.radii x) s.mv)[k]? = _
    rw [hs, hmv, coord_perm st hp k hk, ← he]
    exact site_coordinations st (geom x) hok hcnt (maskIn m x) rmin rmax gen hg k hk
  · intro i hi
    have e : s.getNeighborSites x i = Overlap.getNeighborSites st freshCache (evalOverlap tr) i := by
      show Overlap.getNeighborSites (struOf s.radii x) s.nbrs s.mv i = _
      rw [hs]
      unfold Overlap.getNeighborSites
      rw [ids_eq hn, hmv]
    obtain ⟨a1, a2⟩ := getNeighborSites_spec st tr i
    obtain ⟨b1, b2⟩ := getNeighborSites_spec st (bondsOf st (maskIn m x) rmin rmax gen) i
    obtain ⟨c1, c2⟩ := neighbour_sites st (geom x) hok hcnt (maskIn m x) rmin rmax gen hg i hi
    rw [e]
    refine ⟨a1, fun j => ?_⟩
    rw [a2 j]
    have h3 := c2 j
    rw [he, b2 j] at h3
    refine Iff.trans ?_ h3
    simp only [hp.mem_iff]
  · intro i hi tp
    have e : s.coordinationByTypes x i = Overlap.coordinationByTypes st s.nbrs (evalOverlap tr) i := by
      show Overlap.coordinationByTypes (struOf s.radii x) s.nbrs s.mv i = _
      rw [hs, hmv]
    obtain ⟨-, a2, -⟩ := coordinationByTypes_spec st tr i hi s.nbrs (hmv ▸ hn)
    obtain ⟨-, b2, -⟩ := coordinationByTypes_spec st (bondsOf st (maskIn m x) rmin rmax gen) i hi freshCache (Or.inl rfl)
    obtain ⟨c1, c2⟩ := coordination_by_types st (geom x) hok hcnt (maskIn m x) rmin rmax gen hg i hi tp
    rw [he] at c1 c2
    rw [e]
    constructor
    · rw [(a2 tp).1, (hp.map _).sum_eq, ← (b2 tp).1]
      exact c1
    · rw [(a2 tp).2]
      simp only [hp.mem_iff]
      rw [← (b2 tp).2]
      exact c2
  · intro order ho i hi j hj
    show Overlap.flipDiffTotal (struOf s.radii x) s.nbrs s.mv order i j = _
    have hb : Balanced st tr := balanced_perm st hp (stru_balanced st (geom x) hok hcnt (fun i _ => sites_mult t x i) (maskIn m x) hm _ _ _ hg)
    have h1 := (flipDiffTotal_spec st tr hin hb s.nbrs (hmv ▸ cacheOK hn) order ho i j).2 (by rw [hlen]; omega)
    have h2 : swapStru st (i : ℤ).toNat (j : ℤ).toNat = swapStru st i j := by rw [Int.toNat_natCast, Int.toNat_natCast]
    rw [hs, hmv, h1, h2, total_perm _ hp, total_perm _ hp, ← he, total_square_overlap st (geom x) hok hcnt (maskIn m x) rmin rmax gen hg]
    have hs' := total_square_overlap (swapStru st i j) (geom x) hok hcnt (maskIn m x) rmin rmax gen (by rw [rmaxUsed_swap st i j hi hj]; exact hg)
    have e : evalStru (swapStru st i j) rmin rmax (maskIn m x) gen = evalStru st rmin rmax (maskIn m x) gen := by
      unfold evalStru
      rw [rmaxUsed_swap st i j hi hj]
      rfl
    rw [e] at hs'
    rw [hs']
  · intro k hk
    obtain ⟨gx, gy, gz, h1, h2, h3, h4⟩ := gradient_component st (geom x) hok hcnt (maskIn m x) rmin rmax gen hg k hk
    rw [he] at h1 h2 h3
    refine ⟨gx, gy, gz, ?_, ?_, ?_, h4⟩
    · show (Overlap.gradients (struOf s.radii x) s.mv 1)[k]? = _
      rw [hs, hmv, grad_perm st hp k hk 1 (by omega)]; exact h1
    · show (Overlap.gradients (struOf s.radii x) s.mv 2)[k]? = _
      rw [hs, hmv, grad_perm st hp k hk 2 (by omega)]; exact h2
    · show (Overlap.gradients (struOf s.radii x) s.mv 3)[k]? = _
      rw [hs, hmv, grad_perm st hp k hk 3 (by omega)]; exact h3

/-- `neighborhoods()`: the classes of sites connected by overlaps; a site that overlaps with nothing is a class of its own unless all its pairs are
masked at the time of the query. -/
theorem stored_neighborhoods (t : RTable) (m : Mask.State) (rmin rmax : ℝ) (gen : ℝ → ℝ → Gen Bond) (x : RStru) (s : Obj) (h : Stored t m rmin rmax gen x s)
    (hok : (geom x).Ok) (hgen : ∀ lo hi, (geom x).IsGen lo hi (gen lo hi)) :
    let N := s.neighborhoods x
    (∀ S ∈ N, S ≠ []) ∧ N.Pairwise (fun S T => ∀ y, y ∈ S → y ∉ T) ∧
    (∀ S ∈ N, ∀ y ∈ S, ∀ z, z ∈ S ↔ Connected (sitesIn t x) (geom x) (maskIn m x) rmin rmax y z) ∧
    (∀ y < x.atoms.length, (∃ S ∈ N, y ∈ S) ↔ ∃ j < x.atoms.length, (maskIn m x y j = true ∧ Touch (sitesIn t x) (geom x) rmin rmax y j) ∨
      (maskIn m x j y = true ∧ Touch (sitesIn t x) (geom x) rmin rmax j y) ∨ Mask.getPairMask s.mask y j = true) := by
  intro N
  obtain ⟨⟨tr, hp, hmv⟩, hr, -, -, -⟩ := h
  set st := sitesIn t x with hst
  have hcnt : st.cnt = (geom x).cnt := sites_cnt t x
  have hs : struOf s.radii x = st := by rw [hr]
  have hg := hgen rmin (Overlap.rmaxUsed st rmax)
  obtain ⟨bonds, hd⟩ := delivers (geom x) hok _ _ _ hg
  have hN : N = Overlap.neighborhoods st (evalOverlap tr) (fun i j => Mask.getPairMask s.mask i j) := by
    show Overlap.neighborhoods (struOf s.radii x) s.mv (fun i j => Mask.getPairMask s.mask i j) = _
    rw [hs, hmv]
  obtain ⟨h1, h2, h3, h4⟩ := neighborhoods_spec st tr (fun i j => Mask.getPairMask s.mask i j)
  have hE : ∀ y z, (y, z) ∈ (tr.filter fun c => decide (0 < overlapOf st.radius c)).map (fun c => (c.i0, c.i1)) ↔
      y < st.cnt ∧ z < st.cnt ∧ maskIn m x y z = true ∧ Touch st (geom x) rmin rmax y z := by
    intro y z
    have h := trace_mem (geom x) _ _ _ bonds hd (maskIn m x) fun a b c => 0 < max 0 (st.radius a + st.radius b - c.d) ∧ (a, b) = (y, z)
    rw [← hcnt] at h
    rw [List.mem_map]
    have e : (∃ a ∈ tr.filter (fun c => decide (0 < overlapOf st.radius c)), (a.i0, a.i1) = (y, z)) ↔
        ∃ c ∈ basicTrace true (mapGen ovBond (gen rmin (Overlap.rmaxUsed st rmax))) true (maskIn m x) st.cnt 0 1,
          0 < max 0 (st.radius c.i0 + st.radius c.i1 - c.bond.d) ∧ (c.i0, c.i1) = (y, z) := by
      simp only [List.mem_filter, decide_eq_true_eq, and_assoc, hp.mem_iff]
      rfl
    rw [e, h]
    constructor
    · rintro ⟨a, ha, b, hb, hm', v, hv, hr', h0, he⟩
      obtain ⟨rfl, rfl⟩ := Prod.mk.inj he
      exact ⟨ha, hb, hm', v, hv, (range_olp st rmin rmax a b ha hb v).1 ⟨hr', h0⟩⟩
    · rintro ⟨hy, hz, hm', v, hv, h0⟩
      obtain ⟨hr', h0⟩ := (range_olp st rmin rmax y z hy hz v).2 h0
      exact ⟨y, hy, z, hz, hm', v, hv, hr', h0, rfl⟩
  rw [hN]
  refine ⟨h1, h2, ?_, ?_⟩
  · intro S hS y hy z
    rw [h3 S hS y hy z]
    unfold Linked Connected
    have : (fun y z => (y, z) ∈ (tr.filter fun c => decide (0 < overlapOf st.radius c)).map (fun c => (c.i0, c.i1))) =
        fun i j => i < st.cnt ∧ j < st.cnt ∧ maskIn m x i j = true ∧ Touch st (geom x) rmin rmax i j := by
      funext y z
      exact propext (hE y z)
    rw [this]
  · intro y hy
    refine (h4 y hy).trans ?_
    have hmm : ∀ j : ℕ, Mask.getPairMask s.mask (min y j : ℕ) (max y j : ℕ) = Mask.getPairMask s.mask y j := by
      intro j
      rcases le_total y j with h | h
      · rw [min_eq_left h, max_eq_right h]
      · rw [min_eq_right h, max_eq_left h, Mask.mask_symmetric]
    constructor
    · rintro (⟨⟨a, b⟩, he, hx'⟩ | ⟨j, hj, hm'⟩)
      · obtain ⟨ha, hb, hm', ht'⟩ := (hE a b).1 he
        rcases hx' with h | h
        · have h : y = a := h
          subst h
          exact ⟨b, hb, Or.inl ⟨hm', ht'⟩⟩
        · have h : y = b := h
          subst h
          exact ⟨a, ha, Or.inr (Or.inl ⟨hm', ht'⟩)⟩
      · exact ⟨j, hj, Or.inr (Or.inr ((hmm j).symm.trans hm'))⟩
    · rintro ⟨j, hj, ⟨hm', ht'⟩ | ⟨hm', ht'⟩ | hm'⟩
      · exact Or.inl ⟨(y, j), (hE y j).2 ⟨hy, hj, hm', ht'⟩, Or.inl rfl⟩
      · exact Or.inl ⟨(j, y), (hE j y).2 ⟨hj, hy, hm', ht'⟩, Or.inr rfl⟩
      · exact Or.inr ⟨j, hj, (hmm j).trans hm'⟩

/-- **C96**, the data of a site: occupancy, type, number of equivalent atoms, and the radius of its type in the table. -/
theorem sites_spec (t : RTable) (x : RStru) (i : ℕ) (h : i < x.atoms.length) :
    (sitesIn t x).occ i = (x.atoms[i].occupancy : ℝ) ∧ (sitesIn t x).typ i = x.atoms[i].atomtype ∧ (sitesIn t x).mult i = (geom x).mult i ∧
    (sitesIn t x).radius i = t.radius x.atoms[i].atomtype := by
  refine ⟨?_, ?_, sites_mult t x i, ?_⟩
  · show ((x.atoms[i]?).map _).getD 0 = _
    rw [List.getElem?_eq_getElem h]; rfl
  · show ((x.atoms[i]?).map _).getD "" = _
    rw [List.getElem?_eq_getElem h]; rfl
  · show (x.atoms.map _).getD i 0 = _
    rw [List.getD_eq_getElem _ _ (by simpa using h), List.getElem_map]

/-- **C96**, the radii in a table after a call on it. -/
theorem radius_after (num : List Char → Option ℝ) (t : RTable) (sym : String) (a : List Char) (r : ℝ) :
    (tstep num t (.radii (.set a r))).radius sym = (if sym.toList = a then r else t.radius sym) ∧
    (tstep num t (.radii (.reset a))).radius sym = (if sym.toList = a then t.std a else t.radius sym) ∧
    (tstep num t (.radii .resetAll)).radius sym = t.std sym.toList ∧
    (tstep num t (.setDefault r)).radius sym = (if (find t.custom sym.toList).isSome then t.radius sym else r) ∧ RTable.fresh.radius sym = 0 := by
  refine ⟨?_, ?_, rfl, ?_, rfl⟩
  · show Tables.lookup t.std (put t.custom a r) sym.toList = _
    unfold RTable.radius Tables.lookup
    rw [find_put]
    by_cases h : sym.toList = a
    · rw [if_pos h, if_pos h]
    · rw [if_neg h, if_neg h]
  · show Tables.lookup t.std (erase t.custom a) sym.toList = _
    unfold RTable.radius Tables.lookup
    rw [find_erase]
    by_cases h : sym.toList = a
    · rw [if_pos h, if_pos h, h]
    · rw [if_neg h, if_neg h]
  · show Tables.lookup (fun _ => r) t.custom sym.toList = _
    unfold RTable.radius Tables.lookup
    cases find t.custom sym.toList <;> rfl

/-! ### Settings -/

section
variable (num : List Char → Option ℝ)

theorem run_append (s : Obj) (a b : List Call) : run num s (a ++ b) = run num (run num s a) b := by
  induction a generalizing s with
  | nil => rfl
  | cons c a ih => exact ih _

theorem run_snoc (s : Obj) (a : List Call) (c : Call) : run num s (a ++ [c]) = (step num (run num s a) c).st := run_append num s a [c]

/-- The settings after any history of calls: limits, table and CPU are those last accepted; a table is changed by all calls made on it, whether it is in
use or not. -/
theorem settings (heap : ℕ → RTable) (cs : List Call) :
    let s := run num (new heap) cs
    s.rmin = lastRmin cs ∧ s.rmax = lastRmax cs ∧ s.tid = lastTable cs ∧ (∀ t, s.heap t = tableNow num heap t cs) ∧ (s.cpuindex, s.ncpu) = lastCpu cs := by
  induction cs using List.reverseRecOn with
  | nil =>
    refine ⟨rfl, rfl, rfl, fun t => ?_, rfl⟩
    show Function.update heap 0 RTable.fresh t = if t = 0 then RTable.fresh else heap t
    by_cases h : t = 0
    · rw [h, Function.update_self, if_pos rfl]
    · rw [Function.update_of_ne h, if_neg h]
  | append_singleton cs c ih =>
    obtain ⟨h1, h2, h3, h4, h5⟩ := ih
    have htab : ∀ t, tableNow num heap t (cs ++ [c]) = tableStep num t (tableNow num heap t cs) c := by
      intro t
      unfold tableNow
      rw [List.foldl_append]
      rfl
    simp only [run_snoc, lastRmin, lastRmax, lastTable, lastCpu, List.foldl_append, List.foldl_cons, List.foldl_nil, htab]
    simp only [lastRmin, lastRmax, lastTable, lastCpu] at h1 h2 h3 h5
    cases c with
    | setRmin r => exact ⟨rfl, h2, h3, h4, h5⟩
    | setRmax r => exact ⟨h1, rfl, h3, h4, h5⟩
    | setTable t =>
      cases t with
      | none => exact ⟨h1, h2, h3, h4, h5⟩
      | some t => exact ⟨h1, h2, rfl, h4, h5⟩
    | setTableByType t =>
      cases t with
      | none => exact ⟨h1, h2, h3, h4, h5⟩
      | some u =>
        refine ⟨h1, h2, rfl, fun t => ?_, h5⟩
        show Function.update (run num (new heap) cs).heap u RTable.fresh t = if u = t then RTable.fresh else tableNow num heap t cs
        by_cases h : u = t
        · subst h
          rw [Function.update_self, if_pos rfl]
        · rw [Function.update_of_ne (Ne.symm h), if_neg h, h4]
    | editTable u op =>
      refine ⟨h1, h2, h3, fun t => ?_, h5⟩
      show Function.update (run num (new heap) cs).heap u (tstep num ((run num (new heap) cs).heap u) op) t = if u = t then tstep num (tableNow num heap t cs) op else tableNow num heap t cs
      by_cases h : u = t
      · subst h
        rw [Function.update_self, h4, if_pos rfl]
      · rw [Function.update_of_ne (Ne.symm h), if_neg h, h4]
    | mask op => exact ⟨h1, h2, h3, h4, h5⟩
    | setStructure x so td => exact ⟨h1, h2, h3, h4, h5⟩
    | eval x so td gen => exact ⟨h1, h2, h3, h4, h5⟩
    | setType t =>
      simp only [step]
      split <;> exact ⟨h1, h2, h3, h4, h5⟩
    | parallel i n =>
      simp only [step]
      split
      · exact ⟨h1, h2, h3, h4, h5⟩
      · exact ⟨h1, h2, h3, h4, rfl⟩
    | merge p n =>
      simp only [step]
      split <;> exact ⟨h1, h2, h3, h4, h5⟩
    | query => exact ⟨h1, h2, h3, h4, h5⟩

theorem proper_prefix {heap : ℕ → RTable} {cs ds : List Call} (h : Proper num heap (cs ++ ds)) : Proper num heap cs :=
  ⟨fun pre op post hc => h.1 pre op (post ++ ds) (by rw [hc]; simp), fun pre x so td post hc => h.2.1 pre x so td (post ++ ds) (by rw [hc]; simp),
    fun pre x so td gen post hc => h.2.2 pre x so td gen (post ++ ds) (by rw [hc]; simp)⟩

theorem masks_run (heap : ℕ → RTable) (cs : List Call) (h : Proper num heap cs) : Mask.Runs (run num (new heap) cs).mask (maskNow cs) := by
  induction cs using List.reverseRecOn with
  | nil => exact Mask.Runs.init
  | append_singleton cs c ih =>
    have ih := ih (proper_prefix num h)
    rw [run_snoc]
    have em : maskNow (cs ++ [c]) = maskStep (maskNow cs) c := by
      unfold maskNow
      rw [List.foldl_append]
      rfl
    rw [em]
    cases c with
    | setRmin r => exact ih
    | setRmax r => exact ih
    | setTable t => cases t <;> exact ih
    | setTableByType t => cases t <;> exact ih
    | editTable u op => exact ih
    | mask op =>
      obtain ⟨h1, h2⟩ := h.1 cs op [] rfl
      exact Mask.Runs.call ih op h1 h2
    | setStructure x so td => exact Mask.Runs.stru ih _ so td (h.2.1 cs x so td [] rfl)
    | eval x so td gen => exact Mask.Runs.stru ih _ so td (h.2.2 cs x so td gen [] rfl)
    | setType t =>
      simp only [step]
      split <;> exact ih
    | parallel i n =>
      simp only [step]
      split <;> exact ih
    | merge p n =>
      simp only [step]
      split <;> exact ih
    | query => exact ih

/-! ### Evaluations -/

theorem maxsep_eq (t : RTable) (x : RStru) : 2 * maxRadius (radiiIn t x) = maxSeparation (sitesIn t x) := by
  have hl : (radiiIn t x).length = x.atoms.length := List.length_map _
  have e : (List.range (sitesIn t x).cnt).map (sitesIn t x).radius = radiiIn t x := by
    refine List.ext_getElem (by simp [hl, struOf]) fun i h1 h2 => ?_
    rw [List.getElem_map, List.getElem_range]
    show (radiiIn t x).getD i 0 = _
    rw [List.getD_eq_getElem _ _ h2]
  unfold maxSeparation
  rw [e]
  unfold maxRadius
  cases radiiIn t x with
  | nil => rfl
  | cons r rs => rfl

theorem mask_use (heap : ℕ → RTable) (cs : List Call) (hp : Proper num heap cs) (x : RStru) (hall : Mask.allStr ∉ x.atoms.map fun a => a.atomtype)
    (so : List (Int × Bool)) (td : List (Mask.TKey × Bool)) (hv : (Mask.Op.stru [] so td).Valid (run num (new heap) cs).mask) (i j : ℕ) :
    Mask.getPairMask (Mask.setStructure so td (run num (new heap) cs).mask (x.atoms.map fun a => a.atomtype)) i j = maskIn (maskNow cs) x i j := by
  rw [Mask.mask_in_evaluation (masks_run num heap cs hp) _ hall so td hv i j, List.getElem?_map, List.getElem?_map]
  rfl

theorem maskIn_symm (heap : ℕ → RTable) (cs : List Call) (hp : Proper num heap cs) (x : RStru) (hall : Mask.allStr ∉ x.atoms.map fun a => a.atomtype)
    (i j : ℕ) : maskIn (maskNow cs) x i j = maskIn (maskNow cs) x j i := by
  rw [← mask_use num heap cs hp x hall _ _ ⟨List.Perm.refl _, List.Perm.refl _⟩, ← mask_use num heap cs hp x hall _ _ ⟨List.Perm.refl _, List.Perm.refl _⟩, Mask.mask_symmetric]

/-- The contributions of an evaluation by CPU `c` of `n`. -/
noncomputable def jobTrace (st : Stru ℝ) (mask : ℕ → ℕ → Bool) (rmin rmax : ℝ) (gen : ℝ → ℝ → Gen Bond) (c n : Int) : List (Contrib (Bnd ℝ)) :=
  basicTrace (chopOuterRule st.cnt n) (mapGen ovBond (gen rmin (Overlap.rmaxUsed st rmax))) true mask st.cnt c n

theorem evaluate_value (heap : ℕ → RTable) (cs : List Call) (hp : Proper num heap cs) (x : RStru) (hall : Mask.allStr ∉ x.atoms.map fun a => a.atomtype)
    (so : List (Int × Bool)) (td : List (Mask.TKey × Bool)) (hv : (Mask.Op.stru [] so td).Valid (run num (new heap) cs).mask) (gen : ℝ → ℝ → Gen Bond) :
    let t := tableNow num heap (lastTable cs) cs
    let s := run num (new heap) (cs ++ [.eval x so td gen])
    s.mv = evalOverlap (jobTrace (sitesIn t x) (maskIn (maskNow cs) x) (lastRmin cs) (lastRmax cs) gen (lastCpu cs).1 (lastCpu cs).2) ∧
    s.radii = radiiIn t x ∧ s.maxsep = maxSeparation (sitesIn t x) ∧ s.nbrs = freshCache ∧ s.stru = x ∧
    ∀ i j : ℕ, Mask.getPairMask s.mask i j = maskIn (maskNow cs) x i j := by
  intro t s
  obtain ⟨h1, h2, h3, h4, h5⟩ := settings num heap cs
  set s0 := run num (new heap) cs with hs0
  have ht : s0.heap s0.tid = t := by rw [h4, h3]
  have hs : s = evaluate s0 x so td gen := run_snoc num (new heap) cs _
  have h51 : s0.cpuindex = (lastCpu cs).1 := by rw [← h5]
  have h52 : s0.ncpu = (lastCpu cs).2 := by rw [← h5]
  have hrad : (x.atoms.map fun a => (s0.heap s0.tid).radius a.atomtype) = radiiIn t x := by rw [ht]; rfl
  have hmax : s.maxsep = maxSeparation (sitesIn t x) := by
    rw [hs]
    show 2 * maxRadius (x.atoms.map fun a => (s0.heap s0.tid).radius a.atomtype) = _
    rw [hrad, maxsep_eq]
  refine ⟨?_, ?_, hmax, ?_, ?_, ?_⟩
  · rw [hs]
    show (basicTrace (chopOuterRule x.atoms.length s0.ncpu) (mapGen ovBond (gen s0.rmin (min s0.rmax (2 * maxRadius (x.atoms.map fun a => (s0.heap s0.tid).radius a.atomtype))))) true
      (fun i j => !(Mask.hasMask (Mask.setStructure so td s0.mask (x.atoms.map fun a => a.atomtype)) &&
        !Mask.getPairMask (Mask.setStructure so td s0.mask (x.atoms.map fun a => a.atomtype)) i j)) x.atoms.length s0.cpuindex s0.ncpu).foldl addPair [] = _
    have hm : (fun i j : ℕ => Mask.getPairMask (Mask.setStructure so td s0.mask (x.atoms.map fun a => a.atomtype)) i j) = maskIn (maskNow cs) x := by
      funext i j
      exact mask_use num heap cs hp x hall so td hv i j
    rw [use_eq, hm, hrad, maxsep_eq, h51, h52, h1, h2]
    rfl
  · rw [hs]; exact hrad
  · rw [hs]; rfl
  · rw [hs]; rfl
  · intro i j
    rw [hs]
    exact mask_use num heap cs hp x hall so td hv i j

theorem serial_trace (st : Stru ℝ) (mask : ℕ → ℕ → Bool) (rmin rmax : ℝ) (gen : ℝ → ℝ → Gen Bond) (c : Int) :
    jobTrace st mask rmin rmax gen c 1 = bondsOf st mask rmin rmax gen := by
  unfold jobTrace bondsOf
  rw [basicTrace_serial, basicTrace_serial]

/-! ### Reading the results -/

/-- Calls that only set something, or look for neighbours. -/
def Call.Reading : Call → Prop
  | .setStructure _ _ _ => False
  | .eval _ _ _ _ => False
  | .merge _ _ => False
  | _ => True

theorem reading_step (t : RTable) (m : Mask.State) (rmin rmax : ℝ) (gen : ℝ → ℝ → Gen Bond) (x : RStru) (s : Obj) (h : Stored t m rmin rmax gen x s) (c : Call)
    (hc : c.Reading) : Stored t m rmin rmax gen x (step num s c).st := by
  cases c with
  | setTable t => cases t <;> exact h.rec (fun a b c d e => ⟨a, b, c, d, e⟩)
  | setTableByType t => cases t <;> exact h.rec (fun a b c d e => ⟨a, b, c, d, e⟩)
  | setType t => simp only [step]; split <;> exact h.rec (fun a b c d e => ⟨a, b, c, d, e⟩)
  | parallel i n => simp only [step]; split <;> exact h.rec (fun a b c d e => ⟨a, b, c, d, e⟩)
  | setRmin r => exact h.rec (fun a b c d e => ⟨a, b, c, d, e⟩)
  | setRmax r => exact h.rec (fun a b c d e => ⟨a, b, c, d, e⟩)
  | editTable u op => exact h.rec (fun a b c d e => ⟨a, b, c, d, e⟩)
  | mask op => exact h.rec (fun a b c d e => ⟨a, b, c, d, e⟩)
  | setStructure x so td => exact absurd hc id
  | eval x so td gen => exact absurd hc id
  | merge p n => exact absurd hc id
  | query =>
    refine ⟨h.mv, h.radii, h.maxsep, Or.inr ?_, h.stru⟩
    show fillCache s.nbrs s.mv = fillCache freshCache s.mv
    rcases h.nbrs with e | e
    · rw [e]
    · rw [e]
      rfl

theorem reading_run (t : RTable) (m : Mask.State) (rmin rmax : ℝ) (gen : ℝ → ℝ → Gen Bond) (x : RStru) (s : Obj) (h : Stored t m rmin rmax gen x s) (ds : List Call)
    (hd : ∀ c ∈ ds, c.Reading) : Stored t m rmin rmax gen x (run num s ds) := by
  induction ds generalizing s with
  | nil => exact h
  | cons c ds ih => exact ih _ (reading_step num t m rmin rmax gen x s h c (hd c (List.mem_cons_self ..))) fun c hc => hd c (List.mem_cons_of_mem _ hc)

theorem eval_stored (heap : ℕ → RTable) (cs : List Call) (hp : Proper num heap cs) (x : RStru)
    (hall : Mask.allStr ∉ x.atoms.map fun a => a.atomtype) (so : List (Int × Bool)) (td : List (Mask.TKey × Bool))
    (hv : (Mask.Op.stru [] so td).Valid (run num (new heap) cs).mask) (gen : ℝ → ℝ → Gen Bond) (h1 : (lastCpu cs).2 = 1) :
    Stored (tableNow num heap (lastTable cs) cs) (maskNow cs) (lastRmin cs) (lastRmax cs) gen x (run num (new heap) (cs ++ [.eval x so td gen])) := by
  obtain ⟨a1, a2, a3, a4, a5, -⟩ := evaluate_value num heap cs hp x hall so td hv gen
  refine ⟨⟨_, ?_, a1⟩, a2, a3, Or.inl a4, a5⟩
  rw [h1, serial_trace]

/-- **C96**. After any history of calls (masks as in C92), an evaluation in one process and any further settings and queries, all results are those for the limits,
the masks, and the table and its content at the time of the evaluation.  `getRmaxUsed()` is the present upper limit, or twice the largest of those radii. -/
theorem overlap_history (heap : ℕ → RTable) (cs : List Call) (hp : Proper num heap cs) (x : RStru) (hok : (geom x).Ok)
    (hall : Mask.allStr ∉ x.atoms.map fun a => a.atomtype) (so : List (Int × Bool)) (td : List (Mask.TKey × Bool))
    (hv : (Mask.Op.stru [] so td).Valid (run num (new heap) cs).mask) (gen : ℝ → ℝ → Gen Bond) (hgen : ∀ lo hi, (geom x).IsGen lo hi (gen lo hi))
    (h1 : (lastCpu cs).2 = 1) (ds : List Call) (hd : ∀ c ∈ ds, c.Reading) :
    let t := tableNow num heap (lastTable cs) cs
    let s := run num (new heap) (cs ++ .eval x so td gen :: ds)
    Results t (maskNow cs) (lastRmin cs) (lastRmax cs) x s ∧ s.rmaxUsed = min (lastRmax (cs ++ ds)) (maxSeparation (sitesIn t x)) := by
  intro t s
  have hs : s = run num (run num (new heap) (cs ++ [.eval x so td gen])) ds := by
    rw [← run_append, List.append_assoc]; rfl
  have hst := reading_run num _ _ _ _ _ _ _ (eval_stored num heap cs hp x hall so td hv gen h1) ds hd
  rw [← hs] at hst
  refine ⟨stored_results _ _ _ _ gen x s hst hok hgen (maskIn_symm num heap cs hp x hall), ?_⟩
  unfold Obj.rmaxUsed
  rw [hst.maxsep, (settings num heap (cs ++ .eval x so td gen :: ds)).2.1]
  congr 1
  simp only [lastRmax, List.foldl_append, List.foldl_cons]

theorem reading_masks (s : Obj) (ds : List Call) (hd : ∀ c ∈ ds, c.Reading) (hm : ∀ op, Call.mask op ∉ ds) : (run num s ds).mask = s.mask := by
  induction ds generalizing s with
  | nil => rfl
  | cons c ds ih =>
    refine (ih _ (fun c hc => hd c (List.mem_cons_of_mem _ hc)) fun op h => hm op (List.mem_cons_of_mem _ h)).trans ?_
    have hc := hd c (List.mem_cons_self ..)
    cases c with
    | setTable t => cases t <;> rfl
    | setTableByType t => cases t <;> rfl
    | setType t => simp only [step]; split <;> rfl
    | parallel i n => simp only [step]; split <;> rfl
    | setRmin r => rfl
    | setRmax r => rfl
    | editTable u op => rfl
    | mask op => exact absurd (List.mem_cons_self ..) (hm op)
    | setStructure x so td => exact absurd hc id
    | eval x so td gen => exact absurd hc id
    | merge p n => exact absurd hc id
    | query => rfl

/-- **C96**, `neighborhoods()`: the classes of sites connected by the overlaps of the evaluation; a site that overlaps with nothing is a class of its own
unless all its pairs are masked at the time of the query. -/
theorem neighborhoods_history (heap : ℕ → RTable) (cs : List Call) (hp : Proper num heap cs) (x : RStru) (hok : (geom x).Ok)
    (hall : Mask.allStr ∉ x.atoms.map fun a => a.atomtype) (so : List (Int × Bool)) (td : List (Mask.TKey × Bool))
    (hv : (Mask.Op.stru [] so td).Valid (run num (new heap) cs).mask) (gen : ℝ → ℝ → Gen Bond) (hgen : ∀ lo hi, (geom x).IsGen lo hi (gen lo hi))
    (h1 : (lastCpu cs).2 = 1) (ds : List Call) (hd : ∀ c ∈ ds, c.Reading) :
    let s := run num (new heap) (cs ++ .eval x so td gen :: ds)
    let N := s.neighborhoods x
    let st := sitesIn (tableNow num heap (lastTable cs) cs) x
    let allowed := maskIn (maskNow cs) x
    let touch := Touch st (geom x) (lastRmin cs) (lastRmax cs)
    (∀ S ∈ N, S ≠ []) ∧ N.Pairwise (fun S T => ∀ y, y ∈ S → y ∉ T) ∧
    (∀ S ∈ N, ∀ y ∈ S, ∀ z, z ∈ S ↔ Connected st (geom x) allowed (lastRmin cs) (lastRmax cs) y z) ∧
    (∀ y < x.atoms.length, (∃ S ∈ N, y ∈ S) ↔ ∃ j < x.atoms.length, (allowed y j = true ∧ touch y j) ∨ (allowed j y = true ∧ touch j y) ∨ Mask.getPairMask s.mask y j = true) ∧
    ((∀ op, Call.mask op ∉ ds) → ∀ i j : ℕ, Mask.getPairMask s.mask i j = allowed i j) := by
  intro s N st allowed touch
  have hs : run num (new heap) (cs ++ .eval x so td gen :: ds) = run num (run num (new heap) (cs ++ [.eval x so td gen])) ds := by
    rw [← run_append, List.append_assoc]; rfl
  have hst := reading_run num _ _ _ _ _ _ _ (eval_stored num heap cs hp x hall so td hv gen h1) ds hd
  rw [← hs] at hst
  obtain ⟨n1, n2, n3, n4⟩ := stored_neighborhoods _ _ _ _ gen x _ hst hok hgen
  refine ⟨n1, n2, n3, n4, fun hm i j => ?_⟩
  have hmask := reading_masks num (run num (new heap) (cs ++ [.eval x so td gen])) ds hd hm
  show Mask.getPairMask (run num (new heap) (cs ++ .eval x so td gen :: ds)).mask i j = _
  rw [hs, hmask]
  exact (evaluate_value num heap cs hp x hall so td hv gen).2.2.2.2.2 i j

/-! ### Parallel jobs -/

theorem merges_run (s : Obj) (n : ℤ) (parts : List (List ℝ)) (h : s.merged + parts.length ≤ n) :
    run num s (parts.map fun p => .merge p n) = { s with mv := parts.foldl Overlap.merge s.mv, merged := s.merged + parts.length } := by
  induction parts generalizing s with
  | nil => simp [run]
  | cons p ps ih =>
    rw [List.length_cons] at h
    have hlt : ¬ s.merged ≥ n := by push_cast at h; omega
    have hstep : (step num s (.merge p n)).st = { s with mv := Overlap.merge s.mv p, merged := s.merged + 1 } := by
      simp only [step]
      rw [if_neg hlt]
    rw [List.map_cons]
    show run num (step num s (.merge p n)).st _ = _
    rw [hstep, ih _ (by show s.merged + 1 + _ ≤ n; push_cast at h; omega), List.foldl_cons, List.length_cons]
    congr 1
    show s.merged + 1 + _ = _
    push_cast
    ring

/-- **C96**, parallel. `n` jobs with any histories and the same settings evaluate `x` as CPU 0, ..., n-1 of `n`, with bond generators that visit the bonds in
the same order; a further calculator with any history and the same radii is given `x` and merges the results in any order of arrival (partial: without queries in between; `query_before_merge_bug`).  After any further settings
and queries its results are those of a single process. -/
theorem overlap_parallel_partial (n : ℕ) (hn : 1 ≤ n) (heaps : ℕ → ℕ → RTable) (js : ℕ → List Call) (hp : ∀ i < n, Proper num (heaps i) (js i))
    (t : RTable) (m : Mask.State) (rmin rmax : ℝ) (ht : ∀ i < n, tableNow num (heaps i) (lastTable (js i)) (js i) = t) (hm : ∀ i < n, maskNow (js i) = m)
    (hlo : ∀ i < n, lastRmin (js i) = rmin) (hhi : ∀ i < n, lastRmax (js i) = rmax) (hcpu : ∀ i < n, lastCpu (js i) = ((i : ℤ), (n : ℤ)))
    (x : RStru) (hok : (geom x).Ok) (hall : Mask.allStr ∉ x.atoms.map fun a => a.atomtype) (gen : ℝ → ℝ → Gen Bond) (hgen : ∀ lo hi, (geom x).IsGen lo hi (gen lo hi))
    (so : ℕ → List (Int × Bool)) (td : ℕ → List (Mask.TKey × Bool)) (hv : ∀ i < n, (Mask.Op.stru [] (so i) (td i)).Valid (run num (new (heaps i)) (js i)).mask)
    (arrival : List ℕ) (ha : arrival.Perm (List.range n))
    (heap : ℕ → RTable) (cs : List Call) (so' : List (Int × Bool)) (td' : List (Mask.TKey × Bool)) (ht' : tableNow num heap (lastTable cs) cs = t)
    (ds : List Call) (hd : ∀ c ∈ ds, c.Reading) :
    Results t m rmin rmax x (run num (new heap) (cs ++ .setStructure x so' td' ::
      (arrival.map fun i => .merge (run num (new (heaps i)) (js i ++ [.eval x (so i) (td i) gen])).mv n) ++ ds)) := by
  have hval : ∀ i < n, (run num (new (heaps i)) (js i ++ [.eval x (so i) (td i) gen])).mv =
      evalOverlap (jobTrace (sitesIn t x) (maskIn m x) rmin rmax gen (i : ℤ) (n : ℤ)) := by
    intro i hi
    rw [(evaluate_value num (heaps i) (js i) (hp i hi) x hall (so i) (td i) (hv i hi) gen).1, ht i hi, hm i hi, hlo i hi, hhi i hi, hcpu i hi]
  have hsym : ∀ i j, maskIn m x i j = maskIn m x j i := by
    intro i j
    rw [← hm 0 (by omega)]
    exact maskIn_symm num _ _ (hp 0 (by omega)) x hall i j
  set s0 := run num (new heap) cs with hs0
  obtain ⟨-, -, g3, g4, -⟩ := settings num heap cs
  have hrad : (x.atoms.map fun a => (s0.heap s0.tid).radius a.atomtype) = radiiIn t x := by rw [← ht', g4, g3]; rfl
  set s1 := setStructure s0 x so' td' with hs1
  have hrun : run num (new heap) (cs ++ .setStructure x so' td' ::
      (arrival.map fun i => .merge (run num (new (heaps i)) (js i ++ [.eval x (so i) (td i) gen])).mv n) ++ ds) =
      run num (run num s1 ((arrival.map fun i : ℕ => evalOverlap (jobTrace (sitesIn t x) (maskIn m x) rmin rmax gen (i : ℤ) (n : ℤ))).map fun p => .merge p n)) ds := by
    rw [run_append, run_append, List.map_map]
    show run num (run num s1 _) ds = _
    congr 2
    refine List.map_congr_left fun i hi => ?_
    show Call.merge _ _ = Call.merge _ _
    rw [hval i (List.mem_range.1 (ha.mem_iff.1 hi))]
  rw [hrun]
  have hl : arrival.length = n := by rw [ha.length_eq]; simp
  rw [merges_run num s1 n _ (by
    show (0 : ℤ) + _ ≤ _
    rw [List.length_map, hl]; omega)]
  refine stored_results t m rmin rmax gen x _ (reading_run num t m rmin rmax gen x _ ⟨?_, ?_, ?_, ?_, ?_⟩ ds hd) hok hgen hsym
  · obtain ⟨tr, p1, p2, -⟩ := parallel_overlap (sitesIn t x) (chopOuterRule (sitesIn t x).cnt n) (mapGen ovBond (gen rmin (Overlap.rmaxUsed (sitesIn t x) rmax))) (maskIn m x)
      (sitesIn t x).cnt n hn arrival ha
    refine ⟨tr, ?_, p2⟩
    rw [basicTrace_serial] at p1
    unfold bondsOf
    rw [basicTrace_serial]
    exact p1
  · exact hrad
  · show 2 * maxRadius (x.atoms.map fun a => (s0.heap s0.tid).radius a.atomtype) = _
    rw [hrad, maxsep_eq]
  · exact Or.inl rfl
  · rfl

/-- **C96**: a call that throws changes nothing. -/
theorem throw_unchanged (s : Obj) (c : Call) (h : (step num s c).err ≠ none) : (step num s c).st = s := by
  cases c with
  | setTable t => cases t with
    | none => rfl
    | some t => exact absurd rfl h
  | setTableByType t => cases t with
    | none => rfl
    | some t => exact absurd rfl h
  | setType t =>
    simp only [step]
    split <;> rfl
  | parallel i n =>
    simp only [step] at h ⊢
    split at h
    · rename_i h'; rw [if_pos h']
    · exact absurd rfl h
  | merge p n =>
    simp only [step] at h ⊢
    split at h
    · rename_i h'; rw [if_pos h']
    · exact absurd rfl h
  | setRmin r => exact absurd rfl h
  | setRmax r => exact absurd rfl h
  | editTable u op => exact absurd rfl h
  | mask op => exact absurd rfl h
  | setStructure x so td => exact absurd rfl h
  | eval x so td gen => exact absurd rfl h
  | query => exact absurd rfl h

/-- A query between `setStructure` and the merges makes the calculator forget all neighbours that are merged later. -/
theorem query_before_merge_bug (s : Obj) (x : RStru) (so : List (Int × Bool)) (td : List (Mask.TKey × Bool)) (p : List ℝ) (n : ℤ) (hn : 1 ≤ n) (i : ℕ) :
    let s' := run num s [.setStructure x so td, .query, .merge p n]
    s'.mv = p ∧ s'.getNeighborSites x i = [] ∧ s'.coordinationByTypes x i = [] := by
  intro s'
  have hs : s' = { setStructure s x so td with nbrs := ⟨[], true⟩, mv := p, merged := 1 } := by
    show (step num _ (.merge p n)).st = _
    have h0 : ¬ (0 : ℤ) ≥ n := by omega
    have hstep : ∀ o : Obj, ¬ o.merged ≥ n → (step num o (.merge p n)).st = { o with mv := Overlap.merge o.mv p, merged := o.merged + 1 } := by
      intro o h
      simp only [step]
      rw [if_neg h]
    have hf : fillCache freshCache ([] : List ℝ) = ⟨[], true⟩ := by
      unfold fillCache freshCache count
      simp
    refine (hstep _ h0).trans ?_
    show ({ setStructure s x so td with nbrs := fillCache freshCache ([] : List ℝ), mv := [] ++ p, merged := 0 + 1 } : Obj) = _
    rw [hf]
    rfl
  have hids : getNeighborIds s'.nbrs s'.mv i = [] := by rw [hs]; rfl
  refine ⟨by rw [hs], ?_, ?_⟩
  · show Overlap.getNeighborSites _ s'.nbrs s'.mv i = []
    unfold Overlap.getNeighborSites
    rw [hids]; rfl
  · show Overlap.coordinationByTypes _ s'.nbrs s'.mv i = []
    unfold Overlap.coordinationByTypes
    rw [hids]; rfl

end

/-! ### The hypotheses can be met -/

open Verif.BVHist (exIons exGen)

/-- A history with a mask, an evaluation, an edited table, rejected calls and a query, before the last evaluation. -/
noncomputable def exCalls : List Call :=
  [.mask (.typ "Cl1-" "Cl1-" false), .eval exIons [] [(("Cl1-", "Cl1-"), false)] (exGen exIons), .setTable none, .setTableByType (some 4),
    .editTable 4 (.setDefault (3 / 2)), .query, .setType 2, .setRmax 10]

theorem split_cases {cs : List Call} {c : Call} {pre post : List Call} (h : cs = pre ++ c :: post) :
    pre.length < cs.length ∧ pre = cs.take pre.length ∧ cs[pre.length]? = some c := by
  subst h
  simp

theorem ex_mask (num : List Char → Option ℝ) (heap : ℕ → RTable) : (run num (new heap) exCalls).mask =
    Mask.setStructure [] [(("Cl1-", "Cl1-"), false)] (Mask.step Mask.init (.typ "Cl1-" "Cl1-" false)) (exIons.atoms.map fun a => a.atomtype) := rfl

example (num : List Char → Option ℝ) (heap : ℕ → RTable) : Proper num heap exCalls ∧ (geom exIons).Ok ∧ (∀ lo hi, (geom exIons).IsGen lo hi (exGen exIons lo hi)) ∧
    (Mask.Op.stru [] [] [(("Cl1-", "Cl1-"), false)]).Valid (run num (new heap) exCalls).mask ∧ (lastCpu exCalls).2 = 1 ∧ lastRmin exCalls = 0 ∧
    lastRmax exCalls = 10 ∧ lastTable exCalls = 4 ∧ tableNow num heap 4 exCalls = ⟨fun _ => 3 / 2, []⟩ ∧ Mask.allStr ∉ exIons.atoms.map fun a => a.atomtype := by
  refine ⟨⟨?_, ?_, ?_⟩, trivial, fun lo hi => (gen_exists _ _ _).choose_spec, ?_, rfl, rfl, rfl, rfl, rfl, by decide⟩
  · intro pre op post h
    obtain ⟨h1, h2, h3⟩ := split_cases h
    have hl : exCalls.length = 8 := rfl
    rw [hl] at h1
    generalize pre.length = n at h1 h2 h3
    subst h2
    have : n = 0 := by
      rcases n with _ | _ | _ | _ | _ | _ | _ | _ | n
      · rfl
      all_goals cases h3
    subst this
    cases h3
    refine ⟨trivial, ?_⟩
    intro t _ y _
    exact fun hh => by cases hh
  · intro pre x so td post h
    obtain ⟨h1, h2, h3⟩ := split_cases h
    have hl : exCalls.length = 8 := rfl
    rw [hl] at h1
    generalize pre.length = n at h1 h2 h3
    rcases n with _ | _ | _ | _ | _ | _ | _ | _ | n
    all_goals cases h3
  · intro pre x so td gen post h
    obtain ⟨h1, h2, h3⟩ := split_cases h
    have hl : exCalls.length = 8 := rfl
    rw [hl] at h1
    generalize pre.length = n at h1 h2 h3
    have : n = 1 := by
      rcases n with _ | _ | _ | _ | _ | _ | _ | _ | n
      all_goals first | (cases h3; done) | rfl
    subst this
    cases h3
    subst h2
    have : (run num (new heap) (exCalls.take 1)).mask = Mask.step Mask.init (.typ "Cl1-" "Cl1-" false) := rfl
    rw [this]
    exact ⟨List.Perm.refl _, List.Perm.refl _⟩
  · rw [ex_mask]
    exact ⟨List.Perm.refl _, List.Perm.refl _⟩

/-- The two ions, at distance 2, with the radius 3/2: they overlap by 1, and the total square overlap is 1. -/
example : let t : RTable := ⟨fun _ => 3 / 2, []⟩
    olp (sitesIn t exIons) 0 10 0 1 ⟨2, 0, 0⟩ = 1 ∧ total (sitesIn t exIons) (geom exIons) (maskIn (maskNow exCalls) exIons) 0 10 = 1 := by
  intro t
  have hm : maskIn (maskNow exCalls) exIons 0 1 = true ∧ maskIn (maskNow exCalls) exIons 1 0 = true := by decide +kernel
  have r0 : (sitesIn t exIons).radius 0 = 3 / 2 := rfl
  have r1 : (sitesIn t exIons).radius 1 = 3 / 2 := rfl
  have o0 : (sitesIn t exIons).occ 0 = 1 := by show ((1 : ℚ) : ℝ) = 1; norm_num
  have o1 : (sitesIn t exIons).occ 1 = 1 := by show ((1 : ℚ) : ℝ) = 1; norm_num
  have m0 : (sitesIn t exIons).mult 0 = 1 := rfl
  have m1 : (sitesIn t exIons).mult 1 = 1 := rfl
  have hc : (sitesIn t exIons).cnt = 2 := rfl
  have p0 : posOf exIons.atoms 0 = ⟨0, 0, 0⟩ := by
    show (⟨((0 : ℚ) : ℝ), ((0 : ℚ) : ℝ), ((0 : ℚ) : ℝ)⟩ : V3) = _
    norm_num
  have p1 : posOf exIons.atoms 1 = ⟨2, 0, 0⟩ := by
    show (⟨((2 : ℚ) : ℝ), ((0 : ℚ) : ℝ), ((0 : ℚ) : ℝ)⟩ : V3) = _
    norm_num
  have hg : ∀ i j F, (geom exIons).sum i j F = F (V3.sub (posOf exIons.atoms j) (posOf exIons.atoms i)) := fun _ _ _ => rfl
  have h2 : InRange 0 10 (2 : ℝ) := ⟨by norm_num, by norm_num, by norm_num⟩
  have key : ∀ i j v, (sitesIn t exIons).radius i = 3 / 2 → (sitesIn t exIons).radius j = 3 / 2 → V3.norm v = 2 → olp (sitesIn t exIons) 0 10 i j v = 1 := by
    intro i j v hi hj hv
    unfold olp
    rw [hv, if_pos h2, hi, hj]
    norm_num
  have zero : ∀ i j v, V3.norm v = 0 → olp (sitesIn t exIons) 0 10 i j v = 0 := by
    intro i j v hv
    unfold olp
    have : ¬ InRange 0 10 (V3.norm v) := fun h => by
      have h3 := h.2.2
      rw [hv] at h3
      norm_num at h3
    rw [if_neg this]
  have n0 : ∀ i, V3.norm (V3.sub (posOf exIons.atoms i) (posOf exIons.atoms i)) = 0 := fun i => by simp [V3.norm, V3.sub, V3.dot]
  have n1 : V3.norm (V3.sub (posOf exIons.atoms 1) (posOf exIons.atoms 0)) = 2 := by rw [p0, p1]; simp [V3.norm, V3.sub, V3.dot]
  have n2 : V3.norm (V3.sub (posOf exIons.atoms 0) (posOf exIons.atoms 1)) = 2 := by rw [p0, p1]; simp [V3.norm, V3.sub, V3.dot]
  refine ⟨key 0 1 _ r0 r1 (by simp [V3.norm, V3.dot]), ?_⟩
  unfold total squareOverlap
  simp only [hc, hg, Finset.sum_range_succ, Finset.sum_range_zero, hm.1, hm.2, if_true, zero _ _ _ (n0 _), key 0 1 _ r0 r1 n1, key 1 0 _ r1 r0 n2, o0, o1, m0, m1]
  norm_num

/-- Jobs as in `overlap_parallel_partial`: new calculators that are told their CPU. -/
example (num : List Char → Option ℝ) (heap : ℕ → RTable) (i : ℕ) : Proper num heap [.parallel i 3] ∧ lastCpu [.parallel i 3] = ((i : ℤ), 3) ∧
    (Mask.Op.stru [] [] []).Valid (run num (new heap) [.parallel i 3]).mask := by
  refine ⟨⟨?_, ?_, ?_⟩, rfl, ?_⟩
  · intro pre op post h
    obtain ⟨h1, h2, h3⟩ := split_cases h
    generalize pre.length = n at h1 h2 h3
    rcases n with _ | n <;> cases h3
  · intro pre x so td post h
    obtain ⟨h1, h2, h3⟩ := split_cases h
    generalize pre.length = n at h1 h2 h3
    rcases n with _ | n <;> cases h3
  · intro pre x so td gen post h
    obtain ⟨h1, h2, h3⟩ := split_cases h
    generalize pre.length = n at h1 h2 h3
    rcases n with _ | n <;> cases h3
  · exact ⟨List.Perm.refl _, List.Perm.refl _⟩

end Verif.OlpHist
