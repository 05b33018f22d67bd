import Verif.Props.Amounts
import Verif.Props.SameExample
import Mathlib.Tactic.Tauto
import Mathlib.Tactic.FinCases
/-! C99: bond valence sums depend on the total occupancy of every sort of atom only. -/
set_option linter.unusedSectionVars false
namespace Verif.BVHist
open Verif.BondGen Verif.Eval Verif.R3 Verif.Lattice Verif.Diff Verif.KindDiff Verif.Geo Verif.AssocMap
open Verif.BV hiding Op
open Verif.PDFHist (bare amount SameAmounts sum_amounts sum_atom mult_atom)
open scoped BigOperators

/-! ### Specification -/

/-- Both structures have atoms of the same types. -/
def SameTypes (x x' : RStru) : Prop := ∀ t, t ∈ x'.atoms.map Atom.atomtype ↔ t ∈ x.atoms.map Atom.atomtype

/-- The mask goes by the types of the atoms, in the structure `x`. -/
def GoesByTypes (m : Mask.State) (μ : String → String → Bool) (x : RStru) : Prop :=
  ∀ i j a b, x.atoms[i]? = some a → x.atoms[j]? = some b → maskIn m x i j = μ a.atomtype b.atomtype

/-- Masks that were given by types, and the masks of a calculator that was given none for single pairs. -/
theorem goes_by_types (m : Mask.State) (hm : Mask.hasTypeMask m = true ∨ m.inv = []) : ∃ μ, ∀ x, GoesByTypes m μ x := by
  refine ⟨fun a b => Mask.maskOf m 0 0 (some a) (some b), fun x i j a b ha hb => ?_⟩
  unfold maskIn
  rw [ha, hb, Option.map_some, Option.map_some]
  unfold Mask.maskOf
  rcases hm with hm | hm
  · rw [hm]; rfl
  · have e : ∀ a b : ℤ, Mask.getPairMask m a b = m.dflt := by
      intro a b
      unfold Mask.getPairMask
      rw [hm]
      simp
    simp only [e]

/-! ### The sums -/

theorem sum_scale (g : Geometry) (i j : ℕ) (c : ℝ) (F : V3 → ℝ) : g.sum i j (fun v => c * F v) = c * g.sum i j F := by
  cases g with
  | cluster n pos => rfl
  | periodic n L xyz => exact (smul_finsum c fun s : ℤ × ℤ × ℤ => F (PDFCache.imageVec L xyz i j s)).symm
  | crystal cr =>
    show ((Crystal.equivPos cr j).map fun q => ∑ᶠ s : ℤ × ℤ × ℤ, c * F (V3.sub (PDFCache.moved cr.L q s) ((Crystal.equivPos cr i).headD V3.zero))).sum =
      c * ((Crystal.equivPos cr j).map fun q => ∑ᶠ s : ℤ × ℤ × ℤ, F (V3.sub (PDFCache.moved cr.L q s) ((Crystal.equivPos cr i).headD V3.zero))).sum
    rw [← List.sum_map_mul_left]
    congr 1
    refine List.map_congr_left fun q _ => ?_
    exact (smul_finsum c fun s : ℤ × ℤ × ℤ => F (V3.sub (PDFCache.moved cr.L q s) ((Crystal.equivPos cr i).headD V3.zero))).symm

/-- The valence that a bond of length `d` gives to an atom of one type from an atom of another. -/
noncomputable def typeVal (std : SetBV ℝ) (t : Table ℝ) (a b : String) (d : ℝ) : ℝ :=
  (if 0 ≤ getAtomValence t a.toList then 1 else -1) *
    match lookupSymbols std t a.toList b.toList with
    | none => 0
    | some bp => if bp.2.B > 0 then Real.exp ((bp.2.Ro - d) / bp.2.B) else 0

/-- The sum of an atom, from its sort. -/
noncomputable def sortSum (std : SetBV ℝ) (t : Table ℝ) (μ : String → String → Bool) (x : RStru) (R : ℝ) (a : Atom) : ℝ :=
  ∑ j ∈ Finset.range x.atoms.length, (x.atoms[j]?.map fun b => (b.occupancy : ℝ) * if μ a.atomtype b.atomtype = true then
    (geom ⟨x.kind, [bare a, bare b]⟩).sum 0 1 (Geo.cut 0 R fun v => typeVal std t a.atomtype b.atomtype (V3.norm v)) else 0).getD 0

theorem sortSum_amounts (std : SetBV ℝ) (t : Table ℝ) (μ : String → String → Bool) {x x' : RStru} (h : SameAmounts x x') (R : ℝ) (a : Atom) :
    sortSum std t μ x' R a = sortSum std t μ x R a := by
  unfold sortSum
  rw [h.1]
  exact sum_amounts h (fun b => if μ a.atomtype b.atomtype = true then
    (geom ⟨x.kind, [bare a, bare b]⟩).sum 0 1 (Geo.cut 0 R fun v => typeVal std t a.atomtype b.atomtype (V3.norm v)) else 0) fun _ => rfl

theorem sortSum_bare (std : SetBV ℝ) (t : Table ℝ) (μ : String → String → Bool) (x : RStru) (R : ℝ) (a : Atom) :
    sortSum std t μ x R (bare a) = sortSum std t μ x R a := rfl

theorem weightedSum_sort (std : SetBV ℝ) (t : Table ℝ) (x : RStru) (hl : SymmetricFor std t x) (m : Mask.State) (μ : String → String → Bool)
    (hm : GoesByTypes m μ x) (R : ℝ) (k : ℕ) (hk : k < x.atoms.length) :
    weightedSum std t (geom x) (siteAt x) (maskIn m x) R (fun _ => 1) k = sortSum std t μ x R x.atoms[k] := by
  unfold weightedSum sortSum
  rw [geom_cnt]
  refine Finset.sum_congr rfl fun j hj => ?_
  have hj := Finset.mem_range.1 hj
  have ek : x.atoms[k]? = some x.atoms[k] := List.getElem?_eq_getElem hk
  have ej : x.atoms[j]? = some x.atoms[j] := List.getElem?_eq_getElem hj
  rw [hm k j _ _ ek ej, ej, Option.map_some, Option.getD_some]
  by_cases hμ : μ x.atoms[k].atomtype x.atoms[j].atomtype = true
  · rw [if_pos hμ, if_pos hμ, one_mul, ← sum_scale, sum_atom x k j _ _ ek ej]
    congr 1
    funext v
    rw [neighbour_cut]
    unfold Geo.cut
    by_cases hr : InRange 0 R (V3.norm v)
    · rw [if_pos hr, if_pos hr]
      have e1 : siteSign t (siteAt x) k = if 0 ≤ getAtomValence t x.atoms[k].atomtype.toList then 1 else -1 := by
        unfold siteSign
        rw [siteAt_some x k hk]
      have e2 : ∀ d, bondVal std t (siteAt x) k j d = bondVal std t (siteAt x) j k d := by
        intro d
        unfold bondVal
        rw [siteAt_some x k hk, siteAt_some x j hj]
        dsimp only
        rw [hl _ (List.getElem_mem hk) _ (List.getElem_mem hj)]
      have e3 : pairVal std t (siteAt x) k j (V3.norm v) = bondVal std t (siteAt x) k j (V3.norm v) := by
        unfold pairVal
        rcases le_total k j with h | h
        · rw [max_eq_right h, min_eq_left h]; exact (e2 _).symm
        · rw [max_eq_left h, min_eq_right h]
      have e4 : (siteAt x j).occ = (x.atoms[j].occupancy : ℝ) := by rw [siteAt_some x j hj]
      have e5 : bondVal std t (siteAt x) k j (V3.norm v) = match lookupSymbols std t x.atoms[k].atomtype.toList x.atoms[j].atomtype.toList with
          | none => 0
          | some bp => if bp.2.B > 0 then Real.exp ((bp.2.Ro - V3.norm v) / bp.2.B) else 0 := by
        unfold bondVal
        rw [siteAt_some x k hk, siteAt_some x j hj]
        rfl
      beta_reduce
      rw [e1, e3, e4, e5]
      unfold typeVal
      ring
    · rw [if_neg hr, if_neg hr, mul_zero]
  · rw [if_neg hμ, if_neg hμ, mul_zero]

theorem cutoff_amounts (e : Env) (he : e.Ok) (t : Table ℝ) (hb : NoBlank e.std t) {x x' : RStru} (h : SameTypes x x')
    (hl : SymmetricFor e.std t x) (rmax eps : ℝ) : cutoff e t x' rmax eps = cutoff e t x rmax eps := by
  unfold cutoff rmaxUsed
  have hsub : ∀ y, y ∈ symvals t x' ↔ y ∈ symvals t x := by
    have e1 : ∀ z : RStru, symvals t z = (z.atoms.map Atom.atomtype).map fun u => (AtomUtils.atomBareSymbol u.toList, getAtomValence t u.toList) := by
      intro z; unfold symvals; rw [List.map_map]; rfl
    intro y
    rw [e1, e1, List.mem_map, List.mem_map]
    simp only [h _]
  have hs : ∀ y ∈ symvals t x, ∀ z ∈ symvals t x, lookup e.std t y.1 y.2 z.1 z.2 = lookup e.std t z.1 z.2 y.1 y.2 := by
    intro y hy z hz
    obtain ⟨a, ha, rfl⟩ := List.mem_map.1 hy
    obtain ⟨b, hb', rfl⟩ := List.mem_map.1 hz
    exact hl a ha b hb'
  congr 1
  apply le_antisymm
  · refine rmax_le e.std t hb _ _ (fun y hy => ((he _).2 y).2 ((hsub y).1 (((he _).2 y).1 hy))) (fun y hy z hz => ?_) eps
    exact hs y ((hsub y).1 (((he _).2 y).1 hy)) z ((hsub z).1 (((he _).2 z).1 hz))
  · refine rmax_le e.std t hb _ _ (fun y hy => ((he _).2 y).2 ((hsub y).2 (((he _).2 y).1 hy))) (fun y hy z hz => ?_) eps
    exact hs y (((he _).2 y).1 hy) z (((he _).2 z).1 hz)

theorem symmetric_types {std : SetBV ℝ} {t : Table ℝ} {x x' : RStru} (h : SameTypes x x') (hl : SymmetricFor std t x) : SymmetricFor std t x' := by
  intro a ha b hb
  obtain ⟨a', ha', e1⟩ := List.mem_map.1 ((h _).1 (List.mem_map_of_mem (f := Atom.atomtype) ha))
  obtain ⟨b', hb', e2⟩ := List.mem_map.1 ((h _).1 (List.mem_map_of_mem (f := Atom.atomtype) hb))
  rw [← e1, ← e2]
  exact hl a' ha' b' hb'

/-- The results of two evaluations that give the full sums. -/
theorem sums_amounts (e : Env) (he : e.Ok) (t : Table ℝ) (hb : NoBlank e.std t) {x x' : RStru} (h : SameAmounts x x') (hty : SameTypes x x')
    (hl : SymmetricFor e.std t x) (m : Mask.State) (μ : String → String → Bool) (hm : GoesByTypes m μ x) (hm' : GoesByTypes m μ x')
    (rmax eps : ℝ) (s s' : Obj) (hs : Evaluated e t m rmax eps x (fun _ _ => 1) s) (hs' : Evaluated e t m rmax eps x' (fun _ _ => 1) s') :
    (∀ k (hk : k < x.atoms.length) k' (hk' : k' < x'.atoms.length), bare x'.atoms[k'] = bare x.atoms[k] →
      s'.value[k']? = s.value[k]? ∧ s'.valences[k']? = s.valences[k]?) ∧
    s'.bvmsdiff x' = s.bvmsdiff x ∧ s'.bvrmsdiff x' = s.bvrmsdiff x := by
  have hc := cutoff_amounts e he t hb hty hl rmax eps
  have hv : ∀ k (hk : k < x.atoms.length), weightedSum e.std t (geom x) (siteAt x) (maskIn m x) (cutoff e t x rmax eps) (fun _ => 1) k =
      sortSum e.std t μ x (cutoff e t x rmax eps) x.atoms[k] := fun k hk => weightedSum_sort e.std t x hl m μ hm _ k hk
  have hv' : ∀ k (hk : k < x'.atoms.length), weightedSum e.std t (geom x') (siteAt x') (maskIn m x') (cutoff e t x' rmax eps) (fun _ => 1) k =
      sortSum e.std t μ x (cutoff e t x rmax eps) x'.atoms[k] := by
    intro k hk
    rw [weightedSum_sort e.std t x' (symmetric_types hty hl) m μ hm' _ k hk, hc, sortSum_amounts e.std t μ h]
  refine ⟨fun k hk k' hk' hbare => ⟨?_, ?_⟩, ?_⟩
  · rw [hs.value, hs'.value, List.getElem?_map, List.getElem?_map, List.getElem?_range hk, List.getElem?_range hk', Option.map_some, Option.map_some,
      hv k hk, hv' k' hk', ← sortSum_bare e.std t μ x _ x'.atoms[k'], hbare, sortSum_bare]
  · rw [hs.valences, hs'.valences, List.getElem?_map, List.getElem?_map, List.getElem?_eq_getElem hk, List.getElem?_eq_getElem hk', Option.map_some,
      Option.map_some]
    have e : (bare x'.atoms[k']).atomtype = (bare x.atoms[k]).atomtype := by rw [hbare]
    have : x'.atoms[k'].atomtype = x.atoms[k].atomtype := e
    rw [this]
  obtain ⟨-, h2, h3⟩ := diffs_of_sums e t m rmax eps x _ s hs
  obtain ⟨-, h2', h3'⟩ := diffs_of_sums e t m rmax eps x' _ s' hs'
  have hsum : ∀ (n : ℕ) (g : ℕ → ℝ), (List.range n).foldl (fun s i => s + g i) 0 = ∑ i ∈ Finset.range n, g i := by
    intro n g
    rw [foldl_add_sum, zero_add, finset_sum_range]
  have hsite : ∀ (y : RStru), y.kind = x.kind → ∀ i (hi : i < y.atoms.length), (siteAt y i).occ = (y.atoms[i].occupancy : ℝ) ∧
      ((siteAt y i).mult : ℝ) = ((geom ⟨x.kind, [bare y.atoms[i]]⟩).mult 0 : ℝ) := by
    intro y hy i hi
    rw [siteAt_some y i hi]
    refine ⟨rfl, ?_⟩
    dsimp only
    rw [siteMult_eq, mult_atom y i _ (List.getElem?_eq_getElem hi), hy]
  have htot : ∀ (f : Atom → ℝ), (∀ a, f a = f (bare a)) → ∀ A A' : ℕ → ℝ,
      (∀ k (hk : k < x.atoms.length), A k = (x.atoms[k].occupancy : ℝ) * f x.atoms[k]) →
      (∀ k (hk : k < x'.atoms.length), A' k = (x'.atoms[k].occupancy : ℝ) * f x'.atoms[k]) →
      ∑ k ∈ Finset.range x'.atoms.length, A' k = ∑ k ∈ Finset.range x.atoms.length, A k := by
    intro f hf A A' hA hA'
    have := sum_amounts h f hf
    refine ((Finset.sum_congr rfl fun k hk => ?_).trans this).trans (Finset.sum_congr rfl fun k hk => ?_)
    · rw [hA' k (Finset.mem_range.1 hk), List.getElem?_eq_getElem (Finset.mem_range.1 hk)]; rfl
    · rw [hA k (Finset.mem_range.1 hk), List.getElem?_eq_getElem (Finset.mem_range.1 hk)]; rfl
  have hocc : totalOccupancy (siteAt x') x'.atoms.length = totalOccupancy (siteAt x) x.atoms.length := by
    unfold totalOccupancy
    rw [hsum, hsum]
    refine htot (fun a => ((geom ⟨x.kind, [bare a]⟩).mult 0 : ℝ)) (fun _ => rfl) _ _ (fun k hk => ?_) fun k hk => ?_
    · rw [(hsite x rfl k hk).1, (hsite x rfl k hk).2]
    · rw [(hsite x' h.1 k hk).1, (hsite x' h.1 k hk).2]
  have hdiff : ∀ (y : RStru) (val : ℕ → ℝ) (k : ℕ) (hk : k < y.atoms.length),
      BV.bvdiff t (siteAt y) val k = |(getAtomValence t y.atoms[k].atomtype.toList : ℝ)| - |val k| := by
    intro y val k hk
    unfold BV.bvdiff symval
    rw [siteAt_some y k hk]
  have hms : BV.bvmsdiff t (siteAt x') x'.atoms.length
        (fun k => weightedSum e.std t (geom x') (siteAt x') (maskIn m x') (cutoff e t x' rmax eps) (fun _ => 1) k) =
      BV.bvmsdiff t (siteAt x) x.atoms.length
        (fun k => weightedSum e.std t (geom x) (siteAt x) (maskIn m x) (cutoff e t x rmax eps) (fun _ => 1) k) := by
    unfold BV.bvmsdiff
    dsimp only
    rw [hsum, hsum, hocc]
    rw [htot (fun a => ((geom ⟨x.kind, [bare a]⟩).mult 0 : ℝ) * (|(getAtomValence t a.atomtype.toList : ℝ)| -
      |sortSum e.std t μ x (cutoff e t x rmax eps) a|) ^ 2) (fun _ => rfl) _ _ (fun k hk => ?_) fun k hk => ?_]
    · rw [hdiff x _ k hk, (hsite x rfl k hk).1, (hsite x rfl k hk).2]
      rw [hv k hk]
      ring
    · rw [hdiff x' _ k hk, (hsite x' h.1 k hk).1, (hsite x' h.1 k hk).2]
      rw [hv' k hk]
      ring
  refine ⟨by rw [h2, h2', hms], ?_⟩
  rw [h3, h3']
  unfold BV.bvrmsdiff
  rw [hms]

/-- **C99** for bond valence sums: two calculators, each after any history of calls, that have the same parameters, range, precision and a mask by
types evaluate two structures with the same amounts of every sort of atom and the same types of atoms: atoms of one sort have equal sums and
expected valences, and the deviations from the expected valences are the same. -/
theorem bvs_amounts_partial (e : Env) (he : e.Ok) (heap heap' : ℕ → Table ℝ) (cs cs' : List Call) (hp : Proper e heap cs) (hp' : Proper e heap' cs')
    (h1 : (lastCpu cs).2 = 1) (h1' : (lastCpu cs').2 = 1) (htab : tableNow heap' (lastTable cs') cs' = tableNow heap (lastTable cs) cs)
    (hmask : maskNow cs' = maskNow cs) (hrmax : lastRmax cs' = lastRmax cs) (heps : lastEps cs' = lastEps cs)
    {x x' : RStru} (h : SameAmounts x x') (hty : SameTypes x x')
    (hb : NoBlank e.std (tableNow heap (lastTable cs) cs)) (hl : SymmetricFor e.std (tableNow heap (lastTable cs) cs) x)
    (μ : String → String → Bool) (hm : GoesByTypes (maskNow cs) μ x) (hm' : GoesByTypes (maskNow cs) μ x')
    (hok : (geom x).Ok) (hmult : ∀ i < x.atoms.length, ∀ j < x.atoms.length, (geom x).mult i = (geom x).mult j) (hall : Mask.allStr ∉ x.atoms.map fun a => a.atomtype)
    (so : List (Int × Bool)) (td : List (Mask.TKey × Bool)) (hv : (Mask.Op.stru [] so td).Valid (run e (new heap) cs).mask)
    (gen : ℝ → ℝ → Gen Bond) (hgen : ∀ R, (geom x).IsGen 0 R (gen 0 R))
    (hok' : (geom x').Ok) (hmult' : ∀ i < x'.atoms.length, ∀ j < x'.atoms.length, (geom x').mult i = (geom x').mult j) (hall' : Mask.allStr ∉ x'.atoms.map fun a => a.atomtype)
    (so' : List (Int × Bool)) (td' : List (Mask.TKey × Bool)) (hv' : (Mask.Op.stru [] so' td').Valid (run e (new heap') cs').mask)
    (gen' : ℝ → ℝ → Gen Bond) (hgen' : ∀ R, (geom x').IsGen 0 R (gen' 0 R)) :
    let s := run e (new heap) (cs ++ [.eval x so td gen])
    let s' := run e (new heap') (cs' ++ [.eval x' so' td' gen'])
    (∀ k (hk : k < x.atoms.length) k' (hk' : k' < x'.atoms.length), bare x'.atoms[k'] = bare x.atoms[k] →
      s'.value[k']? = s.value[k]? ∧ s'.valences[k']? = s.valences[k]?) ∧
    s'.bvmsdiff x' = s.bvmsdiff x ∧ s'.bvrmsdiff x' = s.bvrmsdiff x := by
  intro s s'
  have hs := sums_history_partial e heap cs hp x hok hmult hall so td hv gen hgen h1
  have hs' := sums_history_partial e heap' cs' hp' x' hok' hmult' hall' so' td' hv' gen' hgen' h1'
  rw [htab, hmask, hrmax, heps] at hs'
  exact sums_amounts e he _ hb h hty hl _ μ hm hm' _ _ s s' hs hs'

end Verif.BVHist

namespace Verif.OlpHist
open Verif.BondGen Verif.Eval Verif.R3 Verif.Lattice Verif.Diff Verif.KindDiff Verif.Geo Verif.Overlap Verif.AssocMap
open Verif.BVHist (maskIn GoesByTypes)
open Verif.PDFHist (bare amount SameAmounts sum_amounts sum_atom mult_atom)
open scoped BigOperators

/-- A sum over the atoms of the types allowed by `P` that overlap with an atom, from its sort. -/
noncomputable def sortOlp (t : RTable) (μ : String → String → Bool) (P : String → Bool) (f : ℝ → ℝ) (x : RStru) (rmin rmax : ℝ) (a : Atom) : ℝ :=
  ∑ j ∈ Finset.range x.atoms.length, (x.atoms[j]?.map fun b => (b.occupancy : ℝ) * if μ a.atomtype b.atomtype = true ∧ P b.atomtype = true then
    (geom ⟨x.kind, [bare a, bare b]⟩).sum 0 1 (Geo.cut rmin rmax fun v => f (lens (t.radius a.atomtype + t.radius b.atomtype) (V3.norm v))) else 0).getD 0

theorem sortOlp_amounts (t : RTable) (μ : String → String → Bool) (P : String → Bool) (f : ℝ → ℝ) {x x' : RStru} (h : SameAmounts x x')
    (rmin rmax : ℝ) (a : Atom) : sortOlp t μ P f x' rmin rmax a = sortOlp t μ P f x rmin rmax a := by
  unfold sortOlp
  rw [h.1]
  exact sum_amounts h (fun b => if μ a.atomtype b.atomtype = true ∧ P b.atomtype = true then
    (geom ⟨x.kind, [bare a, bare b]⟩).sum 0 1 (Geo.cut rmin rmax fun v => f (lens (t.radius a.atomtype + t.radius b.atomtype) (V3.norm v))) else 0) fun _ => rfl

theorem olp_sort (t : RTable) (x : RStru) (m : Mask.State) (μ : String → String → Bool) (hm : GoesByTypes m μ x) (P : String → Bool) (f : ℝ → ℝ) (hf : f 0 = 0)
    (rmin rmax : ℝ) (k : ℕ) (hk : k < x.atoms.length) :
    (∑ j ∈ Finset.range x.atoms.length, if maskIn m x k j = true ∧ P ((sitesIn t x).typ j) = true then
        (sitesIn t x).occ j * (geom x).sum k j (fun v => f (olp (sitesIn t x) rmin rmax k j v)) else 0) =
      sortOlp t μ P f x rmin rmax x.atoms[k] := by
  unfold sortOlp
  refine Finset.sum_congr rfl fun j hj => ?_
  have hj := Finset.mem_range.1 hj
  have ek : x.atoms[k]? = some x.atoms[k] := List.getElem?_eq_getElem hk
  have ej : x.atoms[j]? = some x.atoms[j] := List.getElem?_eq_getElem hj
  obtain ⟨-, -, -, a4⟩ := sites_spec t x k hk
  obtain ⟨b1, b2, -, b4⟩ := sites_spec t x j hj
  rw [hm k j _ _ ek ej, ej, Option.map_some, Option.getD_some, b2]
  by_cases hμ : μ x.atoms[k].atomtype x.atoms[j].atomtype = true ∧ P x.atoms[j].atomtype = true
  · rw [if_pos hμ, if_pos hμ, b1, olp_cut _ _ _ _ _ f hf, sum_atom x k j _ _ ek ej, a4, b4]
  · rw [if_neg hμ, if_neg hμ, mul_zero]

/-- The results of two evaluations. -/
theorem results_amounts (t : RTable) (m : Mask.State) {x x' : RStru} (h : SameAmounts x x') (μ : String → String → Bool) (hm : GoesByTypes m μ x)
    (hm' : GoesByTypes m μ x') (rmin rmax : ℝ) (s s' : Obj) (hs : Results t m rmin rmax x s) (hs' : Results t m rmin rmax x' s') :
    (∀ k (hk : k < x.atoms.length) k' (hk' : k' < x'.atoms.length), bare x'.atoms[k'] = bare x.atoms[k] →
      (s'.siteSquareOverlaps x')[k']? = (s.siteSquareOverlaps x)[k]? ∧ (s'.coordinations x')[k']? = (s.coordinations x)[k]? ∧
      ∀ tp, (find (s'.coordinationByTypes x' k') tp).getD 0 = (find (s.coordinationByTypes x k) tp).getD 0) ∧
    s'.totalSquareOverlap x' = s.totalSquareOverlap x ∧ s'.meanSquareOverlap x' = s.meanSquareOverlap x := by
  classical
  have hsq : ∀ y : RStru, GoesByTypes m μ y → ∀ k (hk : k < y.atoms.length), (∑ j ∈ Finset.range y.atoms.length, if maskIn m y k j = true then
        (sitesIn t y).occ j * squareOverlap (sitesIn t y) (geom y) rmin rmax k j else 0) =
      sortOlp t μ (fun _ => true) (fun z => z ^ 2) y rmin rmax y.atoms[k] := by
    intro y hy k hk
    have := olp_sort t y m μ hy (fun _ => true) (fun z => z ^ 2) (by norm_num) rmin rmax k hk
    simp only [and_true] at this
    exact this
  have hco : ∀ y : RStru, GoesByTypes m μ y → ∀ k (hk : k < y.atoms.length), (∑ j ∈ Finset.range y.atoms.length, if maskIn m y k j = true then
        (sitesIn t y).occ j * contacts (sitesIn t y) (geom y) rmin rmax k j else 0) =
      sortOlp t μ (fun _ => true) (fun z => if 0 < z then 1 else 0) y rmin rmax y.atoms[k] := by
    intro y hy k hk
    have := olp_sort t y m μ hy (fun _ => true) (fun z => if 0 < z then 1 else 0) (by norm_num) rmin rmax k hk
    simp only [and_true] at this
    exact this
  have hty : ∀ (y : RStru) (tp : String), GoesByTypes m μ y → ∀ k (hk : k < y.atoms.length),
      (∑ j ∈ Finset.range y.atoms.length, if maskIn m y k j = true ∧ (sitesIn t y).typ j = tp then
        (sitesIn t y).occ j * contacts (sitesIn t y) (geom y) rmin rmax k j else 0) =
      sortOlp t μ (fun u => decide (u = tp)) (fun z => if 0 < z then 1 else 0) y rmin rmax y.atoms[k] := by
    intro y tp hy k hk
    have := olp_sort t y m μ hy (fun u => decide (u = tp)) (fun z => if 0 < z then 1 else 0) (by norm_num) rmin rmax k hk
    simp only [decide_eq_true_eq] at this
    exact this
  have hbare : ∀ (P : String → Bool) (f : ℝ → ℝ) (a b : Atom), bare b = bare a → sortOlp t μ P f x' rmin rmax b = sortOlp t μ P f x rmin rmax a := by
    intro P f a b e
    rw [sortOlp_amounts t μ P f h]
    have e1 : ∀ c, sortOlp t μ P f x rmin rmax c = sortOlp t μ P f x rmin rmax (bare c) := fun _ => rfl
    rw [e1 b, e, ← e1]
  have htot : ∀ (g : Atom → ℝ), (∀ a, g a = g (bare a)) → ∀ A A' : ℕ → ℝ,
      (∀ k (hk : k < x.atoms.length), A k = (x.atoms[k].occupancy : ℝ) * g x.atoms[k]) →
      (∀ k (hk : k < x'.atoms.length), A' k = (x'.atoms[k].occupancy : ℝ) * g x'.atoms[k]) →
      ∑ k ∈ Finset.range x'.atoms.length, A' k = ∑ k ∈ Finset.range x.atoms.length, A k := by
    intro f hf A A' hA hA'
    have := sum_amounts h f hf
    refine ((Finset.sum_congr rfl fun k hk => ?_).trans this).trans (Finset.sum_congr rfl fun k hk => ?_)
    · rw [hA' k (Finset.mem_range.1 hk), List.getElem?_eq_getElem (Finset.mem_range.1 hk)]; rfl
    · rw [hA k (Finset.mem_range.1 hk), List.getElem?_eq_getElem (Finset.mem_range.1 hk)]; rfl
  have hmult : ∀ (y : RStru), y.kind = x.kind → ∀ i (hi : i < y.atoms.length), ((geom y).mult i : ℝ) = ((geom ⟨x.kind, [bare y.atoms[i]]⟩).mult 0 : ℝ) := by
    intro y hy i hi
    rw [mult_atom y i _ (List.getElem?_eq_getElem hi), hy]
  have hform : ∀ y : RStru, Overlap.total (sitesIn t y) (geom y) (maskIn m y) rmin rmax = (∑ i ∈ Finset.range y.atoms.length, ((geom y).mult i : ℝ) *
      ((sitesIn t y).occ i * ∑ j ∈ Finset.range y.atoms.length, if maskIn m y i j = true then
        (sitesIn t y).occ j * squareOverlap (sitesIn t y) (geom y) rmin rmax i j else 0)) / 2 := by
    intro y
    unfold Overlap.total
    show (∑ i ∈ Finset.range y.atoms.length, ∑ j ∈ Finset.range y.atoms.length, _) / 2 = _
    congr 1
    refine Finset.sum_congr rfl fun i _ => ?_
    rw [Finset.mul_sum, Finset.mul_sum]
    refine Finset.sum_congr rfl fun j _ => ?_
    rw [sites_mult]
    split
    · ring
    · ring
  have hT : Overlap.total (sitesIn t x') (geom x') (maskIn m x') rmin rmax = Overlap.total (sitesIn t x) (geom x) (maskIn m x) rmin rmax := by
    rw [hform, hform]
    congr 1
    refine htot (fun a => ((geom ⟨x.kind, [bare a]⟩).mult 0 : ℝ) * sortOlp t μ (fun _ => true) (fun z => z ^ 2) x rmin rmax a) (fun _ => rfl) _ _
      (fun k hk => ?_) fun k hk => ?_
    · rw [hsq x hm k hk, (sites_spec t x k hk).1, hmult x rfl k hk]; ring
    · rw [hsq x' hm' k hk, (sites_spec t x' k hk).1, hmult x' h.1 k hk, sortOlp_amounts t μ _ _ h]; ring
  refine ⟨fun k hk k' hk' e => ⟨?_, ?_, fun tp => ?_⟩, ?_, ?_⟩
  · rw [hs.square _ hk, hs'.square _ hk', hsq x hm k hk, hsq x' hm' k' hk', hbare _ _ _ _ e]
  · rw [hs.coord _ hk, hs'.coord _ hk', hco x hm k hk, hco x' hm' k' hk', hbare _ _ _ _ e]
  · rw [(hs.byType _ hk tp).1, (hs'.byType _ hk' tp).1, hty x tp hm k hk, hty x' tp hm' k' hk', hbare _ _ _ _ e]
  · rw [hs.total, hs'.total, hT]
  · have e1 := hs.mean
    have e2 := hs'.mean
    dsimp only at e1 e2
    have hA : ∑ i ∈ Finset.range x'.atoms.length, (sitesIn t x').occ i * ((geom x').mult i : ℝ) =
        ∑ i ∈ Finset.range x.atoms.length, (sitesIn t x).occ i * ((geom x).mult i : ℝ) := by
      refine htot (fun a => ((geom ⟨x.kind, [bare a]⟩).mult 0 : ℝ)) (fun _ => rfl) _ _ (fun k hk => ?_) fun k hk => ?_
      · rw [(sites_spec t x k hk).1, hmult x rfl k hk]
      · rw [(sites_spec t x' k hk).1, hmult x' h.1 k hk]
    rw [e1, e2, hA, hT]

/-- **C99** for overlaps: two calculators, each after any history of calls, that have the same radii, range and a mask by types evaluate two structures
with the same amounts of every sort of atom: atoms of one sort have equal square overlaps and coordinations (also by types), the total and the mean
square overlap are the same. -/
theorem overlap_amounts (num : List Char → Option ℝ) (heap heap' : ℕ → RTable) (cs cs' : List Call) (hp : Proper num heap cs) (hp' : Proper num heap' cs')
    (h1 : (lastCpu cs).2 = 1) (h1' : (lastCpu cs').2 = 1) (htab : tableNow num heap' (lastTable cs') cs' = tableNow num heap (lastTable cs) cs)
    (hmask : maskNow cs' = maskNow cs) (hrmin : lastRmin cs' = lastRmin cs) (hrmax : lastRmax cs' = lastRmax cs)
    {x x' : RStru} (h : SameAmounts x x') (μ : String → String → Bool) (hm : GoesByTypes (maskNow cs) μ x) (hm' : GoesByTypes (maskNow cs) μ x')
    (hok : (geom x).Ok) (hall : Mask.allStr ∉ x.atoms.map fun a => a.atomtype)
    (so : List (Int × Bool)) (td : List (Mask.TKey × Bool)) (hv : (Mask.Op.stru [] so td).Valid (run num (new heap) cs).mask)
    (gen : ℝ → ℝ → Gen Bond) (hgen : ∀ lo hi, (geom x).IsGen lo hi (gen lo hi))
    (hok' : (geom x').Ok) (hall' : Mask.allStr ∉ x'.atoms.map fun a => a.atomtype)
    (so' : List (Int × Bool)) (td' : List (Mask.TKey × Bool)) (hv' : (Mask.Op.stru [] so' td').Valid (run num (new heap') cs').mask)
    (gen' : ℝ → ℝ → Gen Bond) (hgen' : ∀ lo hi, (geom x').IsGen lo hi (gen' lo hi)) :
    let s := run num (new heap) (cs ++ [.eval x so td gen])
    let s' := run num (new heap') (cs' ++ [.eval x' so' td' gen'])
    (∀ k (hk : k < x.atoms.length) k' (hk' : k' < x'.atoms.length), bare x'.atoms[k'] = bare x.atoms[k] →
      (s'.siteSquareOverlaps x')[k']? = (s.siteSquareOverlaps x)[k]? ∧ (s'.coordinations x')[k']? = (s.coordinations x)[k]? ∧
      ∀ tp, (find (s'.coordinationByTypes x' k') tp).getD 0 = (find (s.coordinationByTypes x k) tp).getD 0) ∧
    s'.totalSquareOverlap x' = s.totalSquareOverlap x ∧ s'.meanSquareOverlap x' = s.meanSquareOverlap x := by
  intro s s'
  have hs := (overlap_history num heap cs hp x hok hall so td hv gen hgen h1 [] (by simp)).1
  have hs' := (overlap_history num heap' cs' hp' x' hok' hall' so' td' hv' gen' hgen' h1' [] (by simp)).1
  rw [htab, hmask, hrmin, hrmax] at hs'
  exact results_amounts _ _ h μ hm hm' _ _ s s' hs hs'

end Verif.OlpHist

/-! ### A concrete case -/

namespace Verif.BVHist
open Verif.BondGen Verif.Eval Verif.R3 Verif.Lattice Verif.Diff Verif.KindDiff Verif.Geo Verif.AssocMap
open Verif.BV hiding Op
open Verif.PDFHist (bare amount SameAmounts)

/-- An ion. -/
def exIon (t : String) (px occ : ℚ) : Atom := ⟨t, px, 0, 0, occ, false, ⟨0, 0, 0, 0, 0, 0, 0, 0, 0⟩⟩

/-- The pair of ions with the anion in two parts. -/
def exSplit : RStru := ⟨.atomic, [exIon "Cl1-" 2 (1 / 3), exIon "Na1+" 0 1, exIon "Cl1-" 2 (2 / 3)]⟩

theorem exSplit_amounts : SameAmounts exIons exSplit ∧ SameTypes exIons exSplit := by
  refine ⟨⟨rfl, fun s => ?_⟩, fun t => ?_⟩
  · have hx : exIons = ⟨.atomic, [exIon "Na1+" 0 1, exIon "Cl1-" 2 1]⟩ := rfl
    have hA : ∀ o, bare (exIon "Na1+" 0 o) = exIon "Na1+" 0 0 := fun _ => rfl
    have hB : ∀ o, bare (exIon "Cl1-" 2 o) = exIon "Cl1-" 2 0 := fun _ => rfl
    unfold amount
    rw [hx]
    unfold exSplit
    dsimp only
    generalize bare s = t
    simp only [List.filter_cons, List.filter_nil, hA, hB, decide_eq_true_eq]
    by_cases h1 : exIon "Na1+" 0 0 = t
    · subst h1
      rw [if_neg (by decide), if_pos rfl, if_neg (by decide), if_pos rfl, if_neg (by decide)]
    · by_cases h2 : exIon "Cl1-" 2 0 = t
      · subst h2
        rw [if_pos rfl, if_neg (by decide), if_pos rfl, if_neg (by decide), if_pos rfl]
        show (1 / 3 : ℚ) + (2 / 3 + 0) = 1 + 0
        norm_num
      · rw [if_neg h2, if_neg h1, if_neg h2, if_neg h1, if_neg h2]
  · show t ∈ ["Cl1-", "Na1+", "Cl1-"] ↔ t ∈ ["Na1+", "Cl1-"]
    simp only [List.mem_cons, List.not_mem_nil, or_false]
    tauto

/-- Sodium has the same sum next to the two parts of the anion; each of these has that of the whole. -/
example (heap : ℕ → Table ℝ) : let std : SetBV ℝ := [(⟨"Na".toList, 1, "Cl".toList, -1⟩, ⟨2, 1, []⟩)]
    let x := exIons; let x' := exSplit
    let s := run (exEnv std) (new heap) [.eval x [] [] (exGen x)]
    let s' := run (exEnv std) (new heap) [.eval x' [] [] (exGen x')]
    s'.value[1]? = s.value[0]? ∧ s'.value[0]? = s.value[1]? ∧ s'.value[2]? = s.value[1]? ∧ s'.bvmsdiff x' = s.bvmsdiff x := by
  intro std x x' s s'
  have hp : Proper (exEnv std) heap [] := ⟨fun pre op post h => by simp at h, fun pre a b c post h => by simp at h, fun pre a b c d post h => by simp at h⟩
  have hv : (Mask.Op.stru [] [] []).Valid (run (exEnv std) (new heap) []).mask := ⟨List.Perm.refl _, List.Perm.refl _⟩
  have hsym : SymmetricFor std (tableNow heap (lastTable []) []) x := by
    have e : tableNow heap (lastTable []) [] = ⟨[], []⟩ := rfl
    rw [e]
    intro a ha b hb
    have ha : a ∈ exIons.atoms := ha
    have hb : b ∈ exIons.atoms := hb
    fin_cases ha <;> fin_cases hb
    · rfl
    · rfl
    · rfl
    · rfl
  obtain ⟨μ, hμ⟩ := goes_by_types (maskNow []) (Or.inr rfl)
  have h := bvs_amounts_partial (exEnv std) (exEnv_ok std) heap heap [] [] hp hp rfl rfl rfl rfl rfl rfl exSplit_amounts.1 exSplit_amounts.2 ⟨rfl, by decide⟩ hsym
    μ (hμ _) (hμ _) trivial (fun _ _ _ _ => rfl) (by decide) [] [] hv (exGen x) (fun R => (gen_exists _ _ _).choose_spec)
    trivial (fun _ _ _ _ => rfl) (by decide) [] [] hv (exGen x') (fun R => (gen_exists _ _ _).choose_spec)
  exact ⟨(h.1 0 (by decide) 1 (by decide) rfl).1, (h.1 1 (by decide) 0 (by decide) rfl).1, (h.1 1 (by decide) 2 (by decide) rfl).1, h.2.1⟩

end Verif.BVHist

namespace Verif.OlpHist
open Verif.BondGen Verif.Eval Verif.R3 Verif.Lattice Verif.Diff Verif.KindDiff Verif.Geo Verif.Overlap Verif.AssocMap
open Verif.BVHist (exIons exGen exSplit exSplit_amounts goes_by_types)

/-- The same for overlaps. -/
example (num : List Char → Option ℝ) (heap : ℕ → RTable) : let x := exIons; let x' := exSplit
    let s := run num (new heap) [.eval x [] [] (exGen x)]
    let s' := run num (new heap) [.eval x' [] [] (exGen x')]
    (s'.coordinations x')[1]? = (s.coordinations x)[0]? ∧ s'.totalSquareOverlap x' = s.totalSquareOverlap x := by
  intro x x' s s'
  have hp : Proper num heap [] := ⟨fun pre op post h => by simp at h, fun pre a b c post h => by simp at h, fun pre a b c d post h => by simp at h⟩
  have hv : (Mask.Op.stru [] [] []).Valid (run num (new heap) []).mask := ⟨List.Perm.refl _, List.Perm.refl _⟩
  obtain ⟨μ, hμ⟩ := goes_by_types (maskNow []) (Or.inr rfl)
  have h := overlap_amounts num heap heap [] [] hp hp rfl rfl rfl rfl rfl rfl exSplit_amounts.1 μ (hμ _) (hμ _)
    trivial (by decide) [] [] hv (exGen x) (fun lo hi => (gen_exists _ _ _).choose_spec)
    trivial (by decide) [] [] hv (exGen x') (fun lo hi => (gen_exists _ _ _).choose_spec)
  exact ⟨(h.1 0 (by decide) 1 (by decide) rfl).2.1, h.2.1⟩

end Verif.OlpHist
