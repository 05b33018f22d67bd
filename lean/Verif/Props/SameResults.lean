import Verif.Props.SameAtoms
import Verif.Props.BVHistory
import Verif.Props.OverlapHistory
/-! Bond valence sums and overlaps do not depend on how a structure is described. -/
set_option linter.unusedSectionVars false
namespace Verif.Geo
open Verif.BondGen Verif.Eval Verif.R3 Verif.Lattice Verif.Diff Verif.KindDiff

/-! ### Specification -/

/-- `x'` describes the same atoms as `x`, moved as a whole by `ρ`, with the same types and occupancies. -/
structure SameStructure (x x' : RStru) (σ : ℕ → ℕ) (ρ : V3 → V3) : Prop where
  geo : SameAtoms (geom x) (geom x') σ ρ
  atom : ∀ k a', x'.atoms[k]? = some a' → ∃ a, x.atoms[σ k]? = some a ∧ a'.atomtype = a.atomtype ∧ a'.occupancy = a.occupancy

/-- The cell of `x'` has `N` times as many atoms of every site of `x` as the cell of `x`. -/
def Cells (x x' : RStru) (σ : ℕ → ℕ) (N : ℝ) : Prop :=
  0 < N ∧ ∀ j < x.atoms.length, ∑ k ∈ Finset.range x'.atoms.length with σ k = j, ((geom x').mult k : ℝ) = N * (geom x).mult j

/-! ### Lemmas -/

theorem SameStructure.lt {x x' : RStru} {σ : ℕ → ℕ} {ρ : V3 → V3} (h : SameStructure x x' σ ρ) {k : ℕ} (hk : k < x'.atoms.length) : σ k < x.atoms.length := by
  have := h.geo.site k (by rw [geom_cnt]; exact hk)
  rwa [geom_cnt] at this

theorem SameStructure.get {x x' : RStru} {σ : ℕ → ℕ} {ρ : V3 → V3} (h : SameStructure x x' σ ρ) {k : ℕ} (hk : k < x'.atoms.length) :
    x'.atoms[k].atomtype = (x.atoms[σ k]'(h.lt hk)).atomtype ∧ x'.atoms[k].occupancy = (x.atoms[σ k]'(h.lt hk)).occupancy := by
  obtain ⟨a, h1, h2, h3⟩ := h.atom k _ (List.getElem?_eq_getElem hk)
  rw [List.getElem?_eq_getElem (h.lt hk)] at h1
  obtain rfl := Option.some.inj h1
  exact ⟨h2, h3⟩

theorem SameStructure.onto {x x' : RStru} {σ : ℕ → ℕ} {ρ : V3 → V3} (h : SameStructure x x' σ ρ) (hok : (geom x).Ok) {j : ℕ} (hj : j < x.atoms.length) :
    ∃ k < x'.atoms.length, σ k = j := by
  obtain ⟨k, h1, h2⟩ := same_onto h.geo hok j (by rw [geom_cnt]; exact hj)
  rw [geom_cnt] at h1
  exact ⟨k, h1, h2⟩

theorem SameStructure.type {x x' : RStru} {σ : ℕ → ℕ} {ρ : V3 → V3} (h : SameStructure x x' σ ρ) {k : ℕ} (hk : k < x'.atoms.length) :
    (x'.atoms[k]?.map fun a => a.atomtype) = x.atoms[σ k]?.map fun a => a.atomtype := by
  rw [List.getElem?_eq_getElem hk, List.getElem?_eq_getElem (h.lt hk)]
  exact congrArg some (h.get hk).1

/-- Type masks, or no masks, treat both descriptions alike. -/
theorem SameStructure.mask {x x' : RStru} {σ : ℕ → ℕ} {ρ : V3 → V3} (h : SameStructure x x' σ ρ) (m : Mask.State)
    (hm : Mask.hasTypeMask m = true ∨ m.inv = []) (i k : ℕ) (hi : i < x'.atoms.length) (hk : k < x'.atoms.length) :
    BVHist.maskIn m x' i k = BVHist.maskIn m x (σ i) (σ k) := by
  unfold BVHist.maskIn
  rw [h.type hi, h.type hk]
  unfold Mask.maskOf
  rcases hm with hm | hm
  · rw [hm]; rfl
  · have e : ∀ a b : ℤ, Mask.getPairMask m a b = m.dflt := by
      intro a b
      unfold Mask.getPairMask
      rw [hm]
      simp
    rw [e, e]

end Verif.Geo

namespace Verif.BVHist
open Verif.BondGen Verif.Eval Verif.R3 Verif.Lattice Verif.Diff Verif.KindDiff Verif.Geo Verif.AssocMap
open Verif.BV hiding Op

/-- The parameters of a bond do not depend on which atom is named first. -/
def SymmetricFor (std : SetBV ℝ) (t : Table ℝ) (x : RStru) : Prop :=
  ∀ a ∈ x.atoms, ∀ b ∈ x.atoms, lookupSymbols std t a.atomtype.toList b.atomtype.toList = lookupSymbols std t b.atomtype.toList a.atomtype.toList

theorem foldl_max_le {α : Type} (g : α → ℝ) (l : List α) (r B : ℝ) (h0 : r ≤ B) (h : ∀ e ∈ l, g e ≤ B) : l.foldl (fun rv e => max rv (g e)) r ≤ B := by
  induction l generalizing r with
  | nil => exact h0
  | cons a l ih => exact ih _ (max_le h0 (h a (by simp))) fun e he => h e (by simp [he])

theorem insertFold_sub (l s : SetBV ℝ) (e : Key × Par ℝ)
    (he : e ∈ l.foldl (fun s e => match find s e.1 with | some _ => s | none => e :: s) s) : e ∈ l ∨ e ∈ s := by
  induction l generalizing s with
  | nil => exact Or.inr he
  | cons a l ih =>
    rw [List.foldl_cons] at he
    rcases ih _ he with h | h
    · exact Or.inl (by simp [h])
    · cases hf : find s a.1 with
      | some v => rw [hf] at h; exact Or.inr h
      | none =>
        rw [hf] at h
        rcases List.mem_cons.1 h with rfl | h
        · exact Or.inl (by simp)
        · exact Or.inr h

theorem pairsFrom_sub {α : Type} (l : List α) (p : α × α) (h : p ∈ pairsFrom l) : p.1 ∈ l ∧ p.2 ∈ l := by
  induction l with
  | nil => simp [pairsFrom] at h
  | cons a l ih =>
    unfold pairsFrom at h
    rcases List.mem_append.1 h with h | h
    · obtain ⟨y, hy, rfl⟩ := List.mem_map.1 h
      exact ⟨by simp, hy⟩
    · exact ⟨by simp [(ih h).1], by simp [(ih h).2]⟩

/-- The range for a precision does not depend on the order in which symbols are visited, nor on repetitions. -/
theorem rmax_le (std : SetBV ℝ) (t : Table ℝ) (hb : NoBlank std t) (l l' : List (Str × Int)) (hl : ∀ y ∈ l, y ∈ l')
    (hs : ∀ y ∈ l, ∀ z ∈ l, lookup std t y.1 y.2 z.1 z.2 = lookup std t z.1 z.2 y.1 y.2) (eps : ℝ) :
    rmaxFromPrecision std t l eps ≤ rmaxFromPrecision std t l' eps := by
  unfold rmaxFromPrecision
  refine foldl_max_le _ _ _ _ (foldl_max_ge (fun e : Key × Par ℝ => bondvalenceToDistance e.2 eps) _ 0).1 fun e he => ?_
  refine (foldl_max_ge (fun e : Key × Par ℝ => bondvalenceToDistance e.2 eps) _ 0).2 e ?_
  rw [bpUsed_eq] at he ⊢
  rcases insertFold_sub _ _ _ he with he | he
  · obtain ⟨p, hp, rfl⟩ := List.mem_map.1 he
    obtain ⟨h1, h2⟩ := pairsFrom_sub _ _ hp
    apply insertFold_mem
    · rw [List.mem_map]
      rcases pairsFrom_mem l' _ _ (hl _ h1) (hl _ h2) with h | h
      · exact ⟨_, h, rfl⟩
      · exact ⟨_, h, by rw [hs _ h1 _ h2]⟩
    · intro e' h3 h4
      rcases h3 with h3 | h3
      · obtain ⟨q, -, rfl⟩ := List.mem_map.1 h3
        exact lookup_determined std t hb _ _ h4
      · simp at h3
  · simp at he

/-- Both descriptions use the same cutoff. -/
theorem cutoff_same (e : Env) (he : e.Ok) (t : Table ℝ) (hb : NoBlank e.std t) {x x' : RStru} {σ : ℕ → ℕ} {ρ : V3 → V3} (h : SameStructure x x' σ ρ)
    (hok : (geom x).Ok) (hl : SymmetricFor e.std t x) (rmax eps : ℝ) : cutoff e t x' rmax eps = cutoff e t x rmax eps := by
  unfold cutoff rmaxUsed
  have hsub : ∀ y, y ∈ symvals t x' ↔ y ∈ symvals t x := by
    intro y
    unfold symvals
    rw [List.mem_map, List.mem_map]
    constructor
    · rintro ⟨a, ha, rfl⟩
      obtain ⟨k, hk, rfl⟩ := List.getElem_of_mem ha
      exact ⟨_, List.getElem_mem (h.lt hk), by rw [(h.get hk).1]⟩
    · rintro ⟨a, ha, rfl⟩
      obtain ⟨j, hj, rfl⟩ := List.getElem_of_mem ha
      obtain ⟨k, hk, rfl⟩ := h.onto hok hj
      exact ⟨_, List.getElem_mem hk, by rw [(h.get hk).1]⟩
  have hs : ∀ y ∈ symvals t x, ∀ z ∈ symvals t x, lookup e.std t y.1 y.2 z.1 z.2 = lookup e.std t z.1 z.2 y.1 y.2 := by
    intro y hy z hz
    obtain ⟨a, ha, rfl⟩ := List.mem_map.1 hy
    obtain ⟨b, hb', rfl⟩ := List.mem_map.1 hz
    exact hl a ha b hb'
  congr 1
  apply le_antisymm
  · refine rmax_le e.std t hb _ _ (fun y hy => ((he _).2 y).2 ((hsub y).1 (((he _).2 y).1 hy))) (fun y hy z hz => ?_) eps
    exact hs y ((hsub y).1 (((he _).2 y).1 hy)) z ((hsub z).1 (((he _).2 z).1 hz))
  · refine rmax_le e.std t hb _ _ (fun y hy => ((he _).2 y).2 ((hsub y).2 (((he _).2 y).1 hy))) (fun y hy z hz => ?_) eps
    exact hs y (((he _).2 y).1 hy) z (((he _).2 z).1 hz)

theorem neighbour_cut (std : SetBV ℝ) (t : Table ℝ) (st : ℕ → Site) (R : ℝ) (k j : ℕ) (v : V3) :
    neighbour std t st R k j (V3.norm v) = Geo.cut 0 R (fun v => siteSign t st k * pairVal std t st k j (V3.norm v) * (st j).occ) v := by
  unfold neighbour Geo.cut
  have hn : 0 ≤ V3.norm v := V3.norm_nonneg v
  by_cases h : 1 / 2 ^ 26 < V3.norm v ∧ V3.norm v ≤ R
  · have h' : InRange 0 R (V3.norm v) := ⟨hn, h.2, h.1⟩
    rw [if_pos h, if_pos h']
  · have h' : ¬ InRange 0 R (V3.norm v) := fun hh => h ⟨hh.2.2, hh.2.1⟩
    rw [if_neg h, if_neg h']

/-- The sums over all neighbours are the same for both descriptions. -/
theorem weightedSum_same (std : SetBV ℝ) (t : Table ℝ) {x x' : RStru} {σ : ℕ → ℕ} {ρ : V3 → V3} (h : SameStructure x x' σ ρ)
    (hok : (geom x).Ok) (hok' : (geom x').Ok) (hl : SymmetricFor std t x) (m m' : ℕ → ℕ → Bool)
    (hm : ∀ i < x'.atoms.length, ∀ k < x'.atoms.length, m' i k = m (σ i) (σ k)) (R : ℝ) (k : ℕ) (hk : k < x'.atoms.length) :
    weightedSum std t (geom x') (siteAt x') m' R (fun _ => 1) k = weightedSum std t (geom x) (siteAt x) m R (fun _ => 1) (σ k) := by
  unfold weightedSum
  simp only [neighbour_cut]
  refine same_terms h.geo hok hok' 0 R (fun i j d => siteSign t (siteAt x) i * pairVal std t (siteAt x) i j d * (siteAt x j).occ)
    (fun i j d => siteSign t (siteAt x') i * pairVal std t (siteAt x') i j d * (siteAt x' j).occ) m m' (fun _ _ => 1) (fun _ _ => 1) ?_ (fun _ _ _ _ => rfl) ?_ k
    (by rw [geom_cnt]; exact hk)
  · rw [geom_cnt]; exact hm
  · rw [geom_cnt]
    intro i hi j hj d _
    have hs : ∀ {i : ℕ} (hi : i < x'.atoms.length), (siteAt x' i).sym = (siteAt x (σ i)).sym ∧ (siteAt x' i).occ = (siteAt x (σ i)).occ := by
      intro i hi
      rw [siteAt_some x' i hi, siteAt_some x (σ i) (h.lt hi), (h.get hi).1, (h.get hi).2]
      exact ⟨rfl, rfl⟩
    have hsym : ∀ {a b : ℕ} (ha : a < x.atoms.length) (hb : b < x.atoms.length), bondVal std t (siteAt x) a b d = bondVal std t (siteAt x) b a d := by
      intro a b ha hb
      unfold bondVal
      rw [siteAt_some x a ha, siteAt_some x b hb]
      dsimp only
      rw [hl _ (List.getElem_mem ha) _ (List.getElem_mem hb)]
    have hp : ∀ {a b : ℕ} (ha : a < x.atoms.length) (hb : b < x.atoms.length), pairVal std t (siteAt x) a b d = bondVal std t (siteAt x) a b d := by
      intro a b ha hb
      unfold pairVal
      rcases le_total a b with hab | hab
      · rw [max_eq_right hab, min_eq_left hab]; exact hsym hb ha
      · rw [max_eq_left hab, min_eq_right hab]
    have hv : ∀ {a b : ℕ} (ha : a < x'.atoms.length) (hb : b < x'.atoms.length), bondVal std t (siteAt x') a b d = bondVal std t (siteAt x) (σ a) (σ b) d := by
      intro a b ha hb
      unfold bondVal
      rw [(hs ha).1, (hs hb).1]
    have hp' : pairVal std t (siteAt x') i j d = bondVal std t (siteAt x) (σ i) (σ j) d := by
      unfold pairVal
      rcases le_total i j with hab | hab
      · rw [max_eq_right hab, min_eq_left hab, hv hj hi]; exact hsym (h.lt hj) (h.lt hi)
      · rw [max_eq_left hab, min_eq_right hab, hv hi hj]
    rw [hp', hp (h.lt hi) (h.lt hj), (hs hj).2]
    congr 2
    unfold siteSign
    rw [(hs hi).1]

/-- The results of two evaluations that give the full sums. -/
theorem sums_same (e : Env) (he : e.Ok) (t : Table ℝ) (hb : NoBlank e.std t) {x x' : RStru} {σ : ℕ → ℕ} {ρ : V3 → V3} (h : SameStructure x x' σ ρ)
    (hok : (geom x).Ok) (hok' : (geom x').Ok) (hl : SymmetricFor e.std t x) (m : Mask.State)
    (hm : ∀ i < x'.atoms.length, ∀ k < x'.atoms.length, maskIn m x' i k = maskIn m x (σ i) (σ k)) (rmax eps : ℝ) (s s' : Obj)
    (hs : Evaluated e t m rmax eps x (fun _ _ => 1) s) (hs' : Evaluated e t m rmax eps x' (fun _ _ => 1) s') :
    (∀ k < x'.atoms.length, s'.value[k]? = s.value[σ k]? ∧ s'.valences[k]? = s.valences[σ k]?) ∧
    ∀ N, Cells x x' σ N → s'.bvmsdiff x' = s.bvmsdiff x ∧ s'.bvrmsdiff x' = s.bvrmsdiff x := by
  have hval : ∀ k < x'.atoms.length, weightedSum e.std t (geom x') (siteAt x') (maskIn m x') (cutoff e t x' rmax eps) (fun _ => 1) k =
      weightedSum e.std t (geom x) (siteAt x) (maskIn m x) (cutoff e t x rmax eps) (fun _ => 1) (σ k) := by
    intro k hk
    rw [cutoff_same e he t hb h hok hl]
    exact weightedSum_same e.std t h hok hok' hl _ _ hm _ k hk
  refine ⟨fun k hk => ⟨?_, ?_⟩, fun N hN => ?_⟩
  · rw [hs.value, hs'.value, List.getElem?_map, List.getElem?_map, List.getElem?_range hk, List.getElem?_range (h.lt hk)]
    exact congrArg some (hval k hk)
  · rw [hs.valences, hs'.valences, List.getElem?_map, List.getElem?_map, List.getElem?_eq_getElem hk, List.getElem?_eq_getElem (h.lt hk)]
    refine congrArg some ?_
    show getAtomValence t _ = getAtomValence t _
    rw [(h.get hk).1]
  · obtain ⟨-, h2, h3⟩ := diffs_of_sums e t m rmax eps x _ s hs
    obtain ⟨-, h2', h3'⟩ := diffs_of_sums e t m rmax eps x' _ s' hs'
    have hN' : ∀ j < (geom x).cnt, ∑ k ∈ Finset.range (geom x').cnt with σ k = j, ((geom x').mult k : ℝ) = N * (geom x).mult j := by
      rw [geom_cnt, geom_cnt]; exact hN.2
    have hsum : ∀ (n : ℕ) (g : ℕ → ℝ), (List.range n).foldl (fun s i => s + g i) 0 = ∑ i ∈ Finset.range n, g i := by
      intro n g
      rw [foldl_add_sum, zero_add, finset_sum_range]
    have hsite : ∀ (y : RStru) (i : ℕ), i < y.atoms.length → (siteAt y i).mult = (geom y).mult i ∧ (siteAt y i).occ = ((y.atoms[i]?.map fun a => (a.occupancy : ℝ)).getD 0) := by
      intro y i hi
      rw [siteAt_some y i hi, List.getElem?_eq_getElem hi]
      exact ⟨siteMult_eq y i, rfl⟩
    have hocc : ∀ k < x'.atoms.length, (siteAt x' k).occ = (siteAt x (σ k)).occ := by
      intro k hk
      rw [siteAt_some x' k hk, siteAt_some x (σ k) (h.lt hk), (h.get hk).2]
    have htot : ∀ A A' : ℕ → ℝ, (∀ k < x'.atoms.length, A' k = A (σ k)) →
        ∑ k ∈ Finset.range x'.atoms.length, ((siteAt x' k).mult : ℝ) * A' k = N * ∑ j ∈ Finset.range x.atoms.length, ((siteAt x j).mult : ℝ) * A j := by
      intro A A' hA
      have := same_total h.geo N hN' A A' (by rw [geom_cnt]; exact hA)
      rw [geom_cnt, geom_cnt] at this
      rw [Finset.sum_congr rfl fun k hk => by rw [(hsite x' k (Finset.mem_range.1 hk)).1], this]
      congr 1
      exact Finset.sum_congr rfl fun k hk => by rw [(hsite x k (Finset.mem_range.1 hk)).1]
    have hocc2 : totalOccupancy (siteAt x') x'.atoms.length = N * totalOccupancy (siteAt x) x.atoms.length := by
      unfold totalOccupancy
      rw [hsum, hsum]
      simp only [mul_comm (Site.occ _)]
      exact htot _ _ hocc
    have hms : BV.bvmsdiff t (siteAt x') x'.atoms.length
          (fun k => weightedSum e.std t (geom x') (siteAt x') (maskIn m x') (cutoff e t x' rmax eps) (fun _ => 1) k) =
        BV.bvmsdiff t (siteAt x) x.atoms.length
          (fun k => weightedSum e.std t (geom x) (siteAt x) (maskIn m x) (cutoff e t x rmax eps) (fun _ => 1) k) := by
      unfold BV.bvmsdiff
      dsimp only
      rw [hsum, hsum, hocc2]
      simp only [mul_assoc]
      rw [htot (fun j => (siteAt x j).occ * (BV.bvdiff t (siteAt x) (fun k => weightedSum e.std t (geom x) (siteAt x) (maskIn m x) (cutoff e t x rmax eps) (fun _ => 1) k) j *
        BV.bvdiff t (siteAt x) (fun k => weightedSum e.std t (geom x) (siteAt x) (maskIn m x) (cutoff e t x rmax eps) (fun _ => 1) k) j))]
      · have hpos := hN.1
        by_cases hp : totalOccupancy (siteAt x) x.atoms.length > 0
        · rw [if_pos hp, if_pos (mul_pos hpos hp)]
          exact mul_div_mul_left _ _ hpos.ne'
        · have hp' : ¬ N * totalOccupancy (siteAt x) x.atoms.length > 0 := by
            rw [gt_iff_lt, mul_pos_iff_of_pos_left hpos]; exact hp
          rw [if_neg hp, if_neg hp']
      · intro k hk
        rw [hocc k hk]
        unfold BV.bvdiff
        dsimp only
        rw [hval k hk]
        have : symval t (siteAt x' k) = symval t (siteAt x (σ k)) := by
          rw [siteAt_some x' k hk, siteAt_some x (σ k) (h.lt hk), (h.get hk).1]; rfl
        rw [this]
    refine ⟨?_, ?_⟩
    · rw [h2, h2', hms]
    · rw [h3, h3']
      unfold BV.bvrmsdiff
      rw [hms]

/-- **C97** for bond valence sums: of two calculators used in the same way one evaluates `x`, the other a structure `x'` that describes the same atoms: every site has
the sum, and the expected valence, of the site it belongs to, and the deviations from the expected valences are the same. -/
theorem bvs_redescribed_partial (e : Env) (he : e.Ok) (heap : ℕ → Table ℝ) (cs : List Call) (hp : Proper e heap cs) (h1 : (lastCpu cs).2 = 1)
    {x x' : RStru} {σ : ℕ → ℕ} {ρ : V3 → V3} (h : SameStructure x x' σ ρ)
    (hb : NoBlank e.std (tableNow heap (lastTable cs) cs)) (hl : SymmetricFor e.std (tableNow heap (lastTable cs) cs) x)
    (hm : ∀ i < x'.atoms.length, ∀ k < x'.atoms.length, maskIn (maskNow cs) x' i k = maskIn (maskNow cs) x (σ i) (σ k))
    (hok : (geom x).Ok) (hmult : ∀ i < x.atoms.length, ∀ j < x.atoms.length, (geom x).mult i = (geom x).mult j) (hall : Mask.allStr ∉ x.atoms.map fun a => a.atomtype)
    (so : List (Int × Bool)) (td : List (Mask.TKey × Bool)) (hv : (Mask.Op.stru [] so td).Valid (run e (new heap) cs).mask)
    (gen : ℝ → ℝ → Gen Bond) (hgen : ∀ R, (geom x).IsGen 0 R (gen 0 R))
    (hok' : (geom x').Ok) (hmult' : ∀ i < x'.atoms.length, ∀ j < x'.atoms.length, (geom x').mult i = (geom x').mult j) (hall' : Mask.allStr ∉ x'.atoms.map fun a => a.atomtype)
    (so' : List (Int × Bool)) (td' : List (Mask.TKey × Bool)) (hv' : (Mask.Op.stru [] so' td').Valid (run e (new heap) cs).mask)
    (gen' : ℝ → ℝ → Gen Bond) (hgen' : ∀ R, (geom x').IsGen 0 R (gen' 0 R)) :
    let s := run e (new heap) (cs ++ [.eval x so td gen])
    let s' := run e (new heap) (cs ++ [.eval x' so' td' gen'])
    (∀ k < x'.atoms.length, s'.value[k]? = s.value[σ k]? ∧ s'.valences[k]? = s.valences[σ k]?) ∧
    ∀ N, Cells x x' σ N → s'.bvmsdiff x' = s.bvmsdiff x ∧ s'.bvrmsdiff x' = s.bvrmsdiff x := by
  intro s s'
  exact sums_same e he _ hb h hok hok' hl _ hm _ _ s s' (sums_history_partial e heap cs hp x hok hmult hall so td hv gen hgen h1)
    (sums_history_partial e heap cs hp x' hok' hmult' hall' so' td' hv' gen' hgen' h1)

end Verif.BVHist

namespace Verif.OlpHist
open Verif.BondGen Verif.Eval Verif.R3 Verif.Lattice Verif.Diff Verif.KindDiff Verif.Geo Verif.Overlap Verif.AssocMap
open Verif.BVHist (maskIn)

/-- The overlap of spheres of radii that sum up to `r`, with centers at distance `d`. -/
noncomputable def lens (r d : ℝ) : ℝ := max 0 (r - d)

theorem olp_cut (s : Stru ℝ) (rmin rmax : ℝ) (i j : ℕ) (f : ℝ → ℝ) (hf : f 0 = 0) :
    (fun v => f (olp s rmin rmax i j v)) = Geo.cut rmin rmax fun v => f (lens (s.radius i + s.radius j) (V3.norm v)) := by
  funext v
  unfold olp Geo.cut lens
  by_cases h : InRange rmin rmax (V3.norm v)
  · rw [if_pos h, if_pos h]
  · rw [if_neg h, if_neg h, hf]

theorem sites_same (t : RTable) {x x' : RStru} {σ : ℕ → ℕ} {ρ : V3 → V3} (h : SameStructure x x' σ ρ) {k : ℕ} (hk : k < x'.atoms.length) :
    (sitesIn t x').occ k = (sitesIn t x).occ (σ k) ∧ (sitesIn t x').typ k = (sitesIn t x).typ (σ k) ∧ (sitesIn t x').radius k = (sitesIn t x).radius (σ k) := by
  obtain ⟨a1, a2, -, a4⟩ := sites_spec t x' k hk
  obtain ⟨b1, b2, -, b4⟩ := sites_spec t x (σ k) (h.lt hk)
  rw [a1, a2, a4, b1, b2, b4, (h.get hk).1, (h.get hk).2]
  exact ⟨rfl, rfl, rfl⟩

/-- Sums over the neighbours of terms that depend on the overlap and the other site. -/
theorem olp_same (t : RTable) {x x' : RStru} {σ : ℕ → ℕ} {ρ : V3 → V3} (h : SameStructure x x' σ ρ) (hok : (geom x).Ok) (hok' : (geom x').Ok)
    (rmin rmax : ℝ) (f : ℝ → ℝ) (hf : f 0 = 0) (m m' : ℕ → ℕ → Bool) (hm : ∀ i < x'.atoms.length, ∀ k < x'.atoms.length, m' i k = m (σ i) (σ k))
    (c c' : ℕ → ℝ) (hc : ∀ k < x'.atoms.length, c' k = c (σ k)) (i : ℕ) (hi : i < x'.atoms.length) :
    (∑ k ∈ Finset.range x'.atoms.length, if m' i k = true then c' k * (geom x').sum i k (fun v => f (olp (sitesIn t x') rmin rmax i k v)) else 0) =
      ∑ j ∈ Finset.range x.atoms.length, if m (σ i) j = true then c j * (geom x).sum (σ i) j (fun v => f (olp (sitesIn t x) rmin rmax (σ i) j v)) else 0 := by
  simp only [olp_cut _ _ _ _ _ f hf]
  have := same_terms h.geo hok hok' rmin rmax (fun i j d => f (lens ((sitesIn t x).radius i + (sitesIn t x).radius j) d))
    (fun i j d => f (lens ((sitesIn t x').radius i + (sitesIn t x').radius j) d)) m m' (fun _ j => c j) (fun _ k => c' k) (by rw [geom_cnt]; exact hm)
    (by rw [geom_cnt]; exact fun _ _ k hk => hc k hk) (by
      rw [geom_cnt]
      intro a ha b hb d _
      rw [(sites_same t h ha).2.2, (sites_same t h hb).2.2]) i (by rw [geom_cnt]; exact hi)
  rw [geom_cnt, geom_cnt] at this
  exact this

theorem sum_nonneg (g : Geometry) (i j : ℕ) (F : V3 → ℝ) (h : ∀ v, 0 ≤ F v) : 0 ≤ g.sum i j F := by
  cases g with
  | cluster n pos => exact h _
  | periodic n L xyz => exact finsum_nonneg fun s => h _
  | crystal c =>
    refine List.sum_nonneg fun r hr => ?_
    obtain ⟨q, -, rfl⟩ := List.mem_map.1 hr
    exact finsum_nonneg fun s => h _

theorem vecs_touch (s : Stru ℝ) (g : Geometry) (hok : g.Ok) (rmin rmax : ℝ) (i j : ℕ) (hi : i < g.cnt) (hj : j < g.cnt) :
    Touch s g rmin rmax i j ↔ contacts s g rmin rmax i j ≠ 0 := by
  classical
  obtain ⟨gen, hgen⟩ := gen_exists g rmin rmax
  obtain ⟨bonds, hd⟩ := delivers g hok rmin rmax gen hgen
  have e : contacts s g rmin rmax i j = ((bonds i j).map fun b => if 0 < olp s rmin rmax i j b.r01 then (1 : ℝ) else 0).sum := by
    rw [hd.sum i hi j hj (fun v => if 0 < olp s rmin rmax i j v then (1 : ℝ) else 0)]
    unfold contacts
    congr 1
    funext v
    unfold Geo.cut
    by_cases h : InRange rmin rmax (V3.norm v)
    · rw [if_pos h]
    · rw [if_neg h, if_neg]
      unfold olp
      rw [if_neg h]
      exact lt_irrefl 0
  rw [e]
  have hnn : ∀ r ∈ (bonds i j).map fun b => if 0 < olp s rmin rmax i j b.r01 then (1 : ℝ) else 0, 0 ≤ r := by
    intro r hr
    obtain ⟨b, -, rfl⟩ := List.mem_map.1 hr
    split <;> norm_num
  constructor
  · rintro ⟨v, hv, h0⟩
    have hr : InRange rmin rmax (V3.norm v) := by
      by_contra hn
      unfold olp at h0
      rw [if_neg hn] at h0
      exact lt_irrefl 0 h0
    obtain ⟨b, hb, rfl⟩ := (hd.mem i hi j hj v).2 ⟨hv, hr⟩
    have h1 := List.single_le_sum hnn 1 (List.mem_map.2 ⟨b, hb, by rw [if_pos h0]⟩)
    intro h2
    rw [h2] at h1
    linarith
  · intro hne
    by_contra hT
    apply hne
    apply List.sum_eq_zero
    intro r hr
    obtain ⟨b, hb, rfl⟩ := List.mem_map.1 hr
    rw [if_neg]
    intro h0
    exact hT ⟨b.r01, ((hd.mem i hi j hj b.r01).1 ⟨b, hb, rfl⟩).1, h0⟩

/-- The results of two evaluations: those of every site are those of the site it belongs to, totals grow with the number of atoms in the cell. -/
theorem results_same (t : RTable) (m : Mask.State) {x x' : RStru} {σ : ℕ → ℕ} {ρ : V3 → V3} (h : SameStructure x x' σ ρ) (hok : (geom x).Ok) (hok' : (geom x').Ok)
    (hm : ∀ i < x'.atoms.length, ∀ k < x'.atoms.length, maskIn m x' i k = maskIn m x (σ i) (σ k)) (rmin rmax : ℝ) (s s' : Obj)
    (hs : Results t m rmin rmax x s) (hs' : Results t m rmin rmax x' s') :
    (∀ k < x'.atoms.length, (s'.siteSquareOverlaps x')[k]? = (s.siteSquareOverlaps x)[σ k]? ∧ (s'.coordinations x')[k]? = (s.coordinations x)[σ k]? ∧
      (∀ tp, (find (s'.coordinationByTypes x' k) tp).getD 0 = (find (s.coordinationByTypes x (σ k)) tp).getD 0) ∧
      ∀ j, j ∈ s.getNeighborSites x (σ k) ↔ ∃ k' ∈ s'.getNeighborSites x' k, σ k' = j) ∧
    ∀ N, Cells x x' σ N → s'.totalSquareOverlap x' = N * s.totalSquareOverlap x ∧ s'.meanSquareOverlap x' = s.meanSquareOverlap x := by
  classical
  have hsq : ∀ k < x'.atoms.length, (∑ j ∈ Finset.range x'.atoms.length, if maskIn m x' k j = true then
        (sitesIn t x').occ j * squareOverlap (sitesIn t x') (geom x') rmin rmax k j else 0) =
      ∑ j ∈ Finset.range x.atoms.length, if maskIn m x (σ k) j = true then (sitesIn t x).occ j * squareOverlap (sitesIn t x) (geom x) rmin rmax (σ k) j else 0 :=
    fun k hk => olp_same t h hok hok' rmin rmax (fun y => y ^ 2) (by norm_num) _ _ hm _ _ (fun k hk => (sites_same t h hk).1) k hk
  have hco : ∀ (P P' : ℕ → Prop) [DecidablePred P] [DecidablePred P'], (∀ k < x'.atoms.length, P' k ↔ P (σ k)) → ∀ k < x'.atoms.length,
      (∑ j ∈ Finset.range x'.atoms.length, if maskIn m x' k j = true ∧ P' j then (sitesIn t x').occ j * contacts (sitesIn t x') (geom x') rmin rmax k j else 0) =
      ∑ j ∈ Finset.range x.atoms.length, if maskIn m x (σ k) j = true ∧ P j then (sitesIn t x).occ j * contacts (sitesIn t x) (geom x) rmin rmax (σ k) j else 0 := by
    intro P P' _ _ hP k hk
    have := olp_same t h hok hok' rmin rmax (fun y => if 0 < y then 1 else 0) (by norm_num) (fun i j => maskIn m x i j && decide (P j))
      (fun i j => maskIn m x' i j && decide (P' j)) (fun i hi k hk => by rw [hm i hi k hk, decide_eq_decide.2 (hP k hk)])
      _ _ (fun k hk => (sites_same t h hk).1) k hk
    simp only [Bool.and_eq_true, decide_eq_true_eq] at this
    exact this
  have hcoord := hco (fun _ => True) (fun _ => True) (fun _ _ => Iff.rfl)
  simp only [and_true] at hcoord
  refine ⟨fun k hk => ⟨?_, ?_, fun tp => ?_, fun j => ?_⟩, fun N hN => ?_⟩
  · rw [hs.square _ (h.lt hk), hs'.square _ hk, hsq k hk]
  · rw [hs.coord _ (h.lt hk), hs'.coord _ hk, hcoord k hk]
  · rw [(hs.byType _ (h.lt hk) tp).1, (hs'.byType _ hk tp).1]
    exact hco _ _ (fun k hk => by rw [(sites_same t h hk).2.1]) k hk
  · rw [(hs.neighbors _ (h.lt hk)).2 j]
    have hcnt : ∀ k' < x'.atoms.length, (maskIn m x' k k' = true ↔ maskIn m x (σ k) (σ k') = true) := fun k' hk' => by rw [hm k hk k' hk']
    have hone : ∀ j < x.atoms.length, contacts (sitesIn t x) (geom x) rmin rmax (σ k) j =
        ∑ k' ∈ Finset.range x'.atoms.length with σ k' = j, contacts (sitesIn t x') (geom x') rmin rmax k k' := by
      intro j hj
      have := same_sum h.geo hok hok' rmin rmax (fun d => if 0 < lens ((sitesIn t x).radius (σ k) + (sitesIn t x).radius j) d then (1 : ℝ) else 0) k
        (by rw [geom_cnt]; exact hk) j (by rw [geom_cnt]; exact hj)
      rw [geom_cnt] at this
      unfold contacts
      rw [olp_cut _ _ _ _ _ (fun y => if 0 < y then (1 : ℝ) else 0) (by norm_num), ← this]
      refine Finset.sum_congr rfl fun k' hk' => ?_
      obtain ⟨h1, h2⟩ := Finset.mem_filter.1 hk'
      have h1 := Finset.mem_range.1 h1
      rw [olp_cut _ _ _ _ _ (fun y => if 0 < y then (1 : ℝ) else 0) (by norm_num), (sites_same t h hk).2.2, (sites_same t h h1).2.2, h2]
    have hpos : ∀ k' , 0 ≤ contacts (sitesIn t x') (geom x') rmin rmax k k' := by
      intro k'
      refine sum_nonneg _ _ _ _ fun v => ?_
      split <;> norm_num
    constructor
    · rintro ⟨hj, hmk, hT⟩
      rw [vecs_touch _ _ hok _ _ _ _ (by rw [geom_cnt]; exact h.lt hk) (by rw [geom_cnt]; exact hj), hone j hj] at hT
      obtain ⟨k', hk', hne⟩ := Finset.exists_ne_zero_of_sum_ne_zero hT
      obtain ⟨h1, h2⟩ := Finset.mem_filter.1 hk'
      have h1 := Finset.mem_range.1 h1
      refine ⟨k', ((hs'.neighbors _ hk).2 k').2 ⟨h1, (hcnt k' h1).2 (by rw [h2]; exact hmk), ?_⟩, h2⟩
      exact (vecs_touch _ _ hok' _ _ _ _ (by rw [geom_cnt]; exact hk) (by rw [geom_cnt]; exact h1)).2 hne
    · rintro ⟨k', hk', rfl⟩
      obtain ⟨h1, h2, h3⟩ := ((hs'.neighbors _ hk).2 k').1 hk'
      refine ⟨h.lt h1, (hcnt k' h1).1 h2, ?_⟩
      rw [vecs_touch _ _ hok _ _ _ _ (by rw [geom_cnt]; exact h.lt hk) (by rw [geom_cnt]; exact h.lt h1), hone _ (h.lt h1)]
      rw [vecs_touch _ _ hok' _ _ _ _ (by rw [geom_cnt]; exact hk) (by rw [geom_cnt]; exact h1)] at h3
      intro h0
      exact h3 ((Finset.sum_eq_zero_iff_of_nonneg fun k' _ => hpos k').1 h0 k' (Finset.mem_filter.2 ⟨Finset.mem_range.2 h1, rfl⟩))
  · have hN' : ∀ j < (geom x).cnt, ∑ k ∈ Finset.range (geom x').cnt with σ k = j, ((geom x').mult k : ℝ) = N * (geom x).mult j := by
      rw [geom_cnt, geom_cnt]; exact hN.2
    have htot : ∀ A A' : ℕ → ℝ, (∀ k < x'.atoms.length, A' k = A (σ k)) →
        ∑ k ∈ Finset.range x'.atoms.length, ((geom x').mult k : ℝ) * A' k = N * ∑ j ∈ Finset.range x.atoms.length, ((geom x).mult j : ℝ) * A j := by
      intro A A' hA
      have := same_total h.geo N hN' A A' (by rw [geom_cnt]; exact hA)
      rwa [geom_cnt, geom_cnt] at this
    have hform : ∀ y : RStru, Overlap.total (sitesIn t y) (geom y) (maskIn m y) rmin rmax = (∑ i ∈ Finset.range y.atoms.length, ((geom y).mult i : ℝ) *
        ((sitesIn t y).occ i * ∑ j ∈ Finset.range y.atoms.length, if maskIn m y i j = true then
          (sitesIn t y).occ j * squareOverlap (sitesIn t y) (geom y) rmin rmax i j else 0)) / 2 := by
      intro y
      unfold Overlap.total
      show (∑ i ∈ Finset.range y.atoms.length, ∑ j ∈ Finset.range y.atoms.length, _) / 2 = _
      congr 1
      refine Finset.sum_congr rfl fun i _ => ?_
      rw [Finset.mul_sum, Finset.mul_sum]
      refine Finset.sum_congr rfl fun j _ => ?_
      rw [sites_mult]
      split
      · ring
      · ring
    have hT : Overlap.total (sitesIn t x') (geom x') (maskIn m x') rmin rmax = N * Overlap.total (sitesIn t x) (geom x) (maskIn m x) rmin rmax := by
      rw [hform, hform, ← mul_div_assoc, htot _ _ fun k hk => ?_]
      rw [(sites_same t h hk).1, hsq k hk]
    refine ⟨?_, ?_⟩
    · rw [hs.total, hs'.total, hT]
    · have e1 := hs.mean
      have e2 := hs'.mean
      dsimp only at e1 e2
      have hA : ∑ i ∈ Finset.range x'.atoms.length, (sitesIn t x').occ i * ((geom x').mult i : ℝ) = N * ∑ i ∈ Finset.range x.atoms.length, (sitesIn t x).occ i * ((geom x).mult i : ℝ) := by
        simp only [mul_comm (Stru.occ _ _)]
        exact htot _ _ fun k hk => (sites_same t h hk).1
      rw [e1, e2, hA, hT]
      have hpos := hN.1
      by_cases hp : 0 < ∑ i ∈ Finset.range x.atoms.length, (sitesIn t x).occ i * ((geom x).mult i : ℝ)
      · rw [if_pos hp, if_pos (mul_pos hpos hp)]
        exact mul_div_mul_left _ _ hpos.ne'
      · have hp' : ¬ 0 < N * ∑ i ∈ Finset.range x.atoms.length, (sitesIn t x).occ i * ((geom x).mult i : ℝ) := by
          rw [mul_pos_iff_of_pos_left hpos]; exact hp
        rw [if_neg hp, if_neg hp']

/-- **C97** for overlaps: of two calculators used in the same way one evaluates `x`, the other a structure `x'` that describes the same atoms.  Square overlap,
coordination (also by types) and neighbours of every site are those of the site it belongs to; the total grows with the number of atoms in the cell, the mean
is the same. -/
theorem overlap_redescribed (num : List Char → Option ℝ) (heap : ℕ → RTable) (cs : List Call) (hp : Proper num heap cs) (h1 : (lastCpu cs).2 = 1)
    {x x' : RStru} {σ : ℕ → ℕ} {ρ : V3 → V3} (h : SameStructure x x' σ ρ)
    (hm : ∀ i < x'.atoms.length, ∀ k < x'.atoms.length, maskIn (maskNow cs) x' i k = maskIn (maskNow cs) x (σ i) (σ k))
    (hok : (geom x).Ok) (hall : Mask.allStr ∉ x.atoms.map fun a => a.atomtype)
    (so : List (Int × Bool)) (td : List (Mask.TKey × Bool)) (hv : (Mask.Op.stru [] so td).Valid (run num (new heap) cs).mask)
    (gen : ℝ → ℝ → Gen Bond) (hgen : ∀ lo hi, (geom x).IsGen lo hi (gen lo hi))
    (hok' : (geom x').Ok) (hall' : Mask.allStr ∉ x'.atoms.map fun a => a.atomtype)
    (so' : List (Int × Bool)) (td' : List (Mask.TKey × Bool)) (hv' : (Mask.Op.stru [] so' td').Valid (run num (new heap) cs).mask)
    (gen' : ℝ → ℝ → Gen Bond) (hgen' : ∀ lo hi, (geom x').IsGen lo hi (gen' lo hi)) :
    let s := run num (new heap) (cs ++ [.eval x so td gen])
    let s' := run num (new heap) (cs ++ [.eval x' so' td' gen'])
    (∀ k < x'.atoms.length, (s'.siteSquareOverlaps x')[k]? = (s.siteSquareOverlaps x)[σ k]? ∧ (s'.coordinations x')[k]? = (s.coordinations x)[σ k]? ∧
      (∀ tp, (find (s'.coordinationByTypes x' k) tp).getD 0 = (find (s.coordinationByTypes x (σ k)) tp).getD 0) ∧
      ∀ j, j ∈ s.getNeighborSites x (σ k) ↔ ∃ k' ∈ s'.getNeighborSites x' k, σ k' = j) ∧
    ∀ N, Cells x x' σ N → s'.totalSquareOverlap x' = N * s.totalSquareOverlap x ∧ s'.meanSquareOverlap x' = s.meanSquareOverlap x := by
  intro s s'
  exact results_same _ _ h hok hok' hm _ _ s s' (overlap_history num heap cs hp x hok hall so td hv gen hgen h1 [] (by simp)).1
    (overlap_history num heap cs hp x' hok' hall' so' td' hv' gen' hgen' h1 [] (by simp)).1

end Verif.OlpHist
