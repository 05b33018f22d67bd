import Verif.Props.Factors
import Verif.Props.AmountsBV
/-! C103: a common factor of all occupancies; bond valence sums and overlaps. -/
set_option linter.unusedSectionVars false
namespace Verif.BVHist
open Verif.BondGen Verif.Eval Verif.R3 Verif.Lattice Verif.Diff Verif.KindDiff Verif.Geo Verif.AssocMap
open Verif.BV hiding Op
open Verif.PDFHist (bare amount Diluted dilute dilute_spec sum_diluted)
open scoped BigOperators

theorem sortSum_diluted (std : SetBV ℝ) (t : Table ℝ) (μ : String → String → Bool) {x x' : RStru} {q : ℚ} (h : Diluted q x x') (R : ℝ) (a : Atom) :
    sortSum std t μ x' R a = q * sortSum std t μ x R a := by
  unfold sortSum
  rw [h.1]
  exact sum_diluted h (fun b => if μ a.atomtype b.atomtype = true then
    (geom ⟨x.kind, [bare a, bare b]⟩).sum 0 1 (Geo.cut 0 R fun v => typeVal std t a.atomtype b.atomtype (V3.norm v)) else 0) fun _ => rfl

theorem sums_factors (e : Env) (he : e.Ok) (t : Table ℝ) (hb : NoBlank e.std t) {x x' : RStru} {q : ℚ} (h : Diluted q x x') (hty : SameTypes x x')
    (hl : SymmetricFor e.std t x) (m : Mask.State) (μ : String → String → Bool) (hm : GoesByTypes m μ x) (hm' : GoesByTypes m μ x')
    (rmax eps : ℝ) (s s' : Obj) (hs : Evaluated e t m rmax eps x (fun _ _ => 1) s) (hs' : Evaluated e t m rmax eps x' (fun _ _ => 1) s') :
    ∀ k (hk : k < x.atoms.length) k' (hk' : k' < x'.atoms.length), bare x'.atoms[k'] = bare x.atoms[k] →
      s'.value[k']? = s.value[k]?.map ((q : ℝ) * ·) ∧ s'.valences[k']? = s.valences[k]? := by
  have hc := cutoff_amounts e he t hb hty hl rmax eps
  have hv : ∀ k (hk : k < x.atoms.length), weightedSum e.std t (geom x) (siteAt x) (maskIn m x) (cutoff e t x rmax eps) (fun _ => 1) k =
      sortSum e.std t μ x (cutoff e t x rmax eps) x.atoms[k] := fun k hk => weightedSum_sort e.std t x hl m μ hm _ k hk
  have hv' : ∀ k (hk : k < x'.atoms.length), weightedSum e.std t (geom x') (siteAt x') (maskIn m x') (cutoff e t x' rmax eps) (fun _ => 1) k =
      q * sortSum e.std t μ x (cutoff e t x rmax eps) x'.atoms[k] := by
    intro k hk
    rw [weightedSum_sort e.std t x' (symmetric_types hty hl) m μ hm' _ k hk, hc, sortSum_diluted e.std t μ h]
  refine fun k hk k' hk' hbare => ⟨?_, ?_⟩
  · rw [hs.value, hs'.value, List.getElem?_map, List.getElem?_map, List.getElem?_range hk, List.getElem?_range hk', Option.map_some, Option.map_some,
      hv k hk, hv' k' hk', ← sortSum_bare e.std t μ x _ x'.atoms[k'], hbare, sortSum_bare]
    rfl
  · rw [hs.valences, hs'.valences, List.getElem?_map, List.getElem?_map, List.getElem?_eq_getElem hk, List.getElem?_eq_getElem hk', Option.map_some,
      Option.map_some]
    have e : (bare x'.atoms[k']).atomtype = (bare x.atoms[k]).atomtype := by rw [hbare]
    have : x'.atoms[k'].atomtype = x.atoms[k].atomtype := e
    rw [this]

/-- **C103** for bond valence sums: two calculators, each after any history of calls, that have the same parameters, range, precision and a mask by
types evaluate two structures with the same types of atoms, the second with `q` times the amount of every sort of atom: atoms of one sort have in the second structure
`q` times the sum, and equal expected valences. -/
theorem bvs_factors_partial (e : Env) (he : e.Ok) (heap heap' : ℕ → Table ℝ) (cs cs' : List Call) (hp : Proper e heap cs) (hp' : Proper e heap' cs')
    (h1 : (lastCpu cs).2 = 1) (h1' : (lastCpu cs').2 = 1) (htab : tableNow heap' (lastTable cs') cs' = tableNow heap (lastTable cs) cs)
    (hmask : maskNow cs' = maskNow cs) (hrmax : lastRmax cs' = lastRmax cs) (heps : lastEps cs' = lastEps cs)
    {x x' : RStru} {q : ℚ} (h : Diluted q x x') (hty : SameTypes x x')
    (hb : NoBlank e.std (tableNow heap (lastTable cs) cs)) (hl : SymmetricFor e.std (tableNow heap (lastTable cs) cs) x)
    (μ : String → String → Bool) (hm : GoesByTypes (maskNow cs) μ x) (hm' : GoesByTypes (maskNow cs) μ x')
    (hok : (geom x).Ok) (hmult : ∀ i < x.atoms.length, ∀ j < x.atoms.length, (geom x).mult i = (geom x).mult j) (hall : Mask.allStr ∉ x.atoms.map fun a => a.atomtype)
    (so : List (Int × Bool)) (td : List (Mask.TKey × Bool)) (hv : (Mask.Op.stru [] so td).Valid (run e (new heap) cs).mask)
    (gen : ℝ → ℝ → Gen Bond) (hgen : ∀ R, (geom x).IsGen 0 R (gen 0 R))
    (hok' : (geom x').Ok) (hmult' : ∀ i < x'.atoms.length, ∀ j < x'.atoms.length, (geom x').mult i = (geom x').mult j) (hall' : Mask.allStr ∉ x'.atoms.map fun a => a.atomtype)
    (so' : List (Int × Bool)) (td' : List (Mask.TKey × Bool)) (hv' : (Mask.Op.stru [] so' td').Valid (run e (new heap') cs').mask)
    (gen' : ℝ → ℝ → Gen Bond) (hgen' : ∀ R, (geom x').IsGen 0 R (gen' 0 R)) :
    let s := run e (new heap) (cs ++ [.eval x so td gen])
    let s' := run e (new heap') (cs' ++ [.eval x' so' td' gen'])
    ∀ k (hk : k < x.atoms.length) k' (hk' : k' < x'.atoms.length), bare x'.atoms[k'] = bare x.atoms[k] →
      s'.value[k']? = s.value[k]?.map ((q : ℝ) * ·) ∧ s'.valences[k']? = s.valences[k]? := by
  intro s s'
  have hs := sums_history_partial e heap cs hp x hok hmult hall so td hv gen hgen h1
  have hs' := sums_history_partial e heap' cs' hp' x' hok' hmult' hall' so' td' hv' gen' hgen' h1'
  rw [htab, hmask, hrmax, heps] at hs'
  exact sums_factors e he _ hb h hty hl _ μ hm hm' _ _ s s' hs hs'

end Verif.BVHist

namespace Verif.OlpHist
open Verif.BondGen Verif.Eval Verif.R3 Verif.Lattice Verif.Diff Verif.KindDiff Verif.Geo Verif.Overlap Verif.AssocMap
open Verif.BVHist (maskIn GoesByTypes)
open Verif.PDFHist (bare amount Diluted sum_diluted mult_atom)
open scoped BigOperators

theorem sortOlp_diluted (t : RTable) (μ : String → String → Bool) (P : String → Bool) (f : ℝ → ℝ) {x x' : RStru} {q : ℚ} (h : Diluted q x x')
    (rmin rmax : ℝ) (a : Atom) : sortOlp t μ P f x' rmin rmax a = q * sortOlp t μ P f x rmin rmax a := by
  unfold sortOlp
  rw [h.1]
  exact sum_diluted h (fun b => if μ a.atomtype b.atomtype = true ∧ P b.atomtype = true then
    (geom ⟨x.kind, [bare a, bare b]⟩).sum 0 1 (Geo.cut rmin rmax fun v => f (lens (t.radius a.atomtype + t.radius b.atomtype) (V3.norm v))) else 0) fun _ => rfl

/-- The results of two evaluations. -/
theorem results_factors (t : RTable) (m : Mask.State) {x x' : RStru} {q : ℚ} (hq : 0 < q) (h : Diluted q x x') (μ : String → String → Bool) (hm : GoesByTypes m μ x)
    (hm' : GoesByTypes m μ x') (rmin rmax : ℝ) (s s' : Obj) (hs : Results t m rmin rmax x s) (hs' : Results t m rmin rmax x' s') :
    (∀ k (hk : k < x.atoms.length) k' (hk' : k' < x'.atoms.length), bare x'.atoms[k'] = bare x.atoms[k] →
      (s'.siteSquareOverlaps x')[k']? = (s.siteSquareOverlaps x)[k]?.map ((q : ℝ) * ·) ∧ (s'.coordinations x')[k']? = (s.coordinations x)[k]?.map ((q : ℝ) * ·) ∧
      ∀ tp, (find (s'.coordinationByTypes x' k') tp).getD 0 = q * (find (s.coordinationByTypes x k) tp).getD 0) ∧
    s'.totalSquareOverlap x' = q ^ 2 * s.totalSquareOverlap x ∧ s'.meanSquareOverlap x' = q * s.meanSquareOverlap x := by
  classical
  have hsq : ∀ y : RStru, GoesByTypes m μ y → ∀ k (hk : k < y.atoms.length), (∑ j ∈ Finset.range y.atoms.length, if maskIn m y k j = true then
        (sitesIn t y).occ j * squareOverlap (sitesIn t y) (geom y) rmin rmax k j else 0) =
      sortOlp t μ (fun _ => true) (fun z => z ^ 2) y rmin rmax y.atoms[k] := by
    intro y hy k hk
    have := olp_sort t y m μ hy (fun _ => true) (fun z => z ^ 2) (by norm_num) rmin rmax k hk
    simp only [and_true] at this
    exact this
  have hco : ∀ y : RStru, GoesByTypes m μ y → ∀ k (hk : k < y.atoms.length), (∑ j ∈ Finset.range y.atoms.length, if maskIn m y k j = true then
        (sitesIn t y).occ j * contacts (sitesIn t y) (geom y) rmin rmax k j else 0) =
      sortOlp t μ (fun _ => true) (fun z => if 0 < z then 1 else 0) y rmin rmax y.atoms[k] := by
    intro y hy k hk
    have := olp_sort t y m μ hy (fun _ => true) (fun z => if 0 < z then 1 else 0) (by norm_num) rmin rmax k hk
    simp only [and_true] at this
    exact this
  have hty : ∀ (y : RStru) (tp : String), GoesByTypes m μ y → ∀ k (hk : k < y.atoms.length),
      (∑ j ∈ Finset.range y.atoms.length, if maskIn m y k j = true ∧ (sitesIn t y).typ j = tp then
        (sitesIn t y).occ j * contacts (sitesIn t y) (geom y) rmin rmax k j else 0) =
      sortOlp t μ (fun u => decide (u = tp)) (fun z => if 0 < z then 1 else 0) y rmin rmax y.atoms[k] := by
    intro y tp hy k hk
    have := olp_sort t y m μ hy (fun u => decide (u = tp)) (fun z => if 0 < z then 1 else 0) (by norm_num) rmin rmax k hk
    simp only [decide_eq_true_eq] at this
    exact this
  have hbare : ∀ (P : String → Bool) (f : ℝ → ℝ) (a b : Atom), bare b = bare a → sortOlp t μ P f x' rmin rmax b = q * sortOlp t μ P f x rmin rmax a := by
    intro P f a b e
    rw [sortOlp_diluted t μ P f h]
    have e1 : ∀ c, sortOlp t μ P f x rmin rmax c = sortOlp t μ P f x rmin rmax (bare c) := fun _ => rfl
    rw [e1 b, e, ← e1]
  have htot : ∀ (g : Atom → ℝ), (∀ a, g a = g (bare a)) → ∀ A A' : ℕ → ℝ,
      (∀ k (hk : k < x.atoms.length), A k = (x.atoms[k].occupancy : ℝ) * g x.atoms[k]) →
      (∀ k (hk : k < x'.atoms.length), A' k = (x'.atoms[k].occupancy : ℝ) * g x'.atoms[k]) →
      ∑ k ∈ Finset.range x'.atoms.length, A' k = q * ∑ k ∈ Finset.range x.atoms.length, A k := by
    intro f hf A A' hA hA'
    have := sum_diluted h f hf
    refine ((Finset.sum_congr rfl fun k hk => ?_).trans this).trans (congrArg _ (Finset.sum_congr rfl fun k hk => ?_))
    · rw [hA' k (Finset.mem_range.1 hk), List.getElem?_eq_getElem (Finset.mem_range.1 hk)]; rfl
    · rw [hA k (Finset.mem_range.1 hk), List.getElem?_eq_getElem (Finset.mem_range.1 hk)]; rfl
  have hmult : ∀ (y : RStru), y.kind = x.kind → ∀ i (hi : i < y.atoms.length), ((geom y).mult i : ℝ) = ((geom ⟨x.kind, [bare y.atoms[i]]⟩).mult 0 : ℝ) := by
    intro y hy i hi
    rw [mult_atom y i _ (List.getElem?_eq_getElem hi), hy]
  have hform : ∀ y : RStru, Overlap.total (sitesIn t y) (geom y) (maskIn m y) rmin rmax = (∑ i ∈ Finset.range y.atoms.length, ((geom y).mult i : ℝ) *
      ((sitesIn t y).occ i * ∑ j ∈ Finset.range y.atoms.length, if maskIn m y i j = true then
        (sitesIn t y).occ j * squareOverlap (sitesIn t y) (geom y) rmin rmax i j else 0)) / 2 := by
    intro y
    unfold Overlap.total
    show (∑ i ∈ Finset.range y.atoms.length, ∑ j ∈ Finset.range y.atoms.length, _) / 2 = _
    congr 1
    refine Finset.sum_congr rfl fun i _ => ?_
    rw [Finset.mul_sum, Finset.mul_sum]
    refine Finset.sum_congr rfl fun j _ => ?_
    rw [sites_mult]
    split
    · ring
    · ring
  have hT : Overlap.total (sitesIn t x') (geom x') (maskIn m x') rmin rmax = q ^ 2 * Overlap.total (sitesIn t x) (geom x) (maskIn m x) rmin rmax := by
    rw [hform, hform, ← mul_div_assoc, sq, mul_assoc, Finset.mul_sum]
    congr 1
    refine htot (fun a => q * (((geom ⟨x.kind, [bare a]⟩).mult 0 : ℝ) * sortOlp t μ (fun _ => true) (fun z => z ^ 2) x rmin rmax a)) (fun _ => rfl) _ _
      (fun k hk => ?_) fun k hk => ?_
    · rw [hsq x hm k hk, (sites_spec t x k hk).1, hmult x rfl k hk]; ring
    · rw [hsq x' hm' k hk, (sites_spec t x' k hk).1, hmult x' h.1 k hk, sortOlp_diluted t μ _ _ h]; ring
  refine ⟨fun k hk k' hk' e => ⟨?_, ?_, fun tp => ?_⟩, ?_, ?_⟩
  · rw [hs.square _ hk, hs'.square _ hk', hsq x hm k hk, hsq x' hm' k' hk', hbare _ _ _ _ e, mul_div_assoc]; rfl
  · rw [hs.coord _ hk, hs'.coord _ hk', hco x hm k hk, hco x' hm' k' hk', hbare _ _ _ _ e]; rfl
  · rw [(hs.byType _ hk tp).1, (hs'.byType _ hk' tp).1, hty x tp hm k hk, hty x' tp hm' k' hk', hbare _ _ _ _ e]
  · rw [hs.total, hs'.total, hT]
  · have e1 := hs.mean
    have e2 := hs'.mean
    dsimp only at e1 e2
    have hA : ∑ i ∈ Finset.range x'.atoms.length, (sitesIn t x').occ i * ((geom x').mult i : ℝ) =
        q * ∑ i ∈ Finset.range x.atoms.length, (sitesIn t x).occ i * ((geom x).mult i : ℝ) := by
      refine htot (fun a => ((geom ⟨x.kind, [bare a]⟩).mult 0 : ℝ)) (fun _ => rfl) _ _ (fun k hk => ?_) fun k hk => ?_
      · rw [(sites_spec t x k hk).1, hmult x rfl k hk]
      · rw [(sites_spec t x' k hk).1, hmult x' h.1 k hk]
    have hq' : (0 : ℝ) < q := by exact_mod_cast hq
    rw [e1, e2, hA, hT]
    by_cases h0 : 0 < ∑ i ∈ Finset.range x.atoms.length, (sitesIn t x).occ i * ((geom x).mult i : ℝ)
    · rw [if_pos h0, if_pos (mul_pos hq' h0)]
      field_simp
    · rw [if_neg h0, if_neg (fun h1 => h0 ((pos_iff_pos_of_mul_pos h1).1 hq')), mul_zero]

/-- **C103** for overlaps: two calculators, each after any history of calls, that have the same radii, range and a mask by types evaluate two structures,
the second with `q` times the amount of every sort of atom: atoms of one sort have in it `q` times the square overlaps and coordinations (also by types), the mean square
overlap is `q` times and the total `q²` times that of the first. -/
theorem overlap_factors (num : List Char → Option ℝ) (heap heap' : ℕ → RTable) (cs cs' : List Call) (hp : Proper num heap cs) (hp' : Proper num heap' cs')
    (h1 : (lastCpu cs).2 = 1) (h1' : (lastCpu cs').2 = 1) (htab : tableNow num heap' (lastTable cs') cs' = tableNow num heap (lastTable cs) cs)
    (hmask : maskNow cs' = maskNow cs) (hrmin : lastRmin cs' = lastRmin cs) (hrmax : lastRmax cs' = lastRmax cs)
    {x x' : RStru} {q : ℚ} (hq : 0 < q) (h : Diluted q x x') (μ : String → String → Bool) (hm : GoesByTypes (maskNow cs) μ x) (hm' : GoesByTypes (maskNow cs) μ x')
    (hok : (geom x).Ok) (hall : Mask.allStr ∉ x.atoms.map fun a => a.atomtype)
    (so : List (Int × Bool)) (td : List (Mask.TKey × Bool)) (hv : (Mask.Op.stru [] so td).Valid (run num (new heap) cs).mask)
    (gen : ℝ → ℝ → Gen Bond) (hgen : ∀ lo hi, (geom x).IsGen lo hi (gen lo hi))
    (hok' : (geom x').Ok) (hall' : Mask.allStr ∉ x'.atoms.map fun a => a.atomtype)
    (so' : List (Int × Bool)) (td' : List (Mask.TKey × Bool)) (hv' : (Mask.Op.stru [] so' td').Valid (run num (new heap') cs').mask)
    (gen' : ℝ → ℝ → Gen Bond) (hgen' : ∀ lo hi, (geom x').IsGen lo hi (gen' lo hi)) :
    let s := run num (new heap) (cs ++ [.eval x so td gen])
    let s' := run num (new heap') (cs' ++ [.eval x' so' td' gen'])
    (∀ k (hk : k < x.atoms.length) k' (hk' : k' < x'.atoms.length), bare x'.atoms[k'] = bare x.atoms[k] →
      (s'.siteSquareOverlaps x')[k']? = (s.siteSquareOverlaps x)[k]?.map ((q : ℝ) * ·) ∧ (s'.coordinations x')[k']? = (s.coordinations x)[k]?.map ((q : ℝ) * ·) ∧
      ∀ tp, (find (s'.coordinationByTypes x' k') tp).getD 0 = q * (find (s.coordinationByTypes x k) tp).getD 0) ∧
    s'.totalSquareOverlap x' = q ^ 2 * s.totalSquareOverlap x ∧ s'.meanSquareOverlap x' = q * s.meanSquareOverlap x := by
  intro s s'
  have hs := (overlap_history num heap cs hp x hok hall so td hv gen hgen h1 [] (by simp)).1
  have hs' := (overlap_history num heap' cs' hp' x' hok' hall' so' td' hv' gen' hgen' h1' [] (by simp)).1
  rw [htab, hmask, hrmin, hrmax] at hs'
  exact results_factors _ _ hq h μ hm hm' _ _ s s' hs hs'

end Verif.OlpHist

/-! ### A concrete case -/

namespace Verif.BVHist
open Verif.BondGen Verif.Eval Verif.R3 Verif.Lattice Verif.Diff Verif.KindDiff Verif.Geo Verif.AssocMap
open Verif.BV hiding Op
open Verif.PDFHist (bare Diluted dilute dilute_spec)

/-- The pair of ions, each site occupied by one half: the sums are halved. -/
example (heap : ℕ → Table ℝ) : let std : SetBV ℝ := [(⟨"Na".toList, 1, "Cl".toList, -1⟩, ⟨2, 1, []⟩)]
    let x := exIons; let x' := dilute (1 / 2) exIons
    let s := run (exEnv std) (new heap) [.eval x [] [] (exGen x)]
    let s' := run (exEnv std) (new heap) [.eval x' [] [] (exGen x')]
    s'.value[0]? = s.value[0]?.map (((1 / 2 : ℚ) : ℝ) * ·) ∧ s'.value[1]? = s.value[1]?.map (((1 / 2 : ℚ) : ℝ) * ·) := by
  intro std x x' s s'
  have hp : Proper (exEnv std) heap [] := ⟨fun pre op post h => by simp at h, fun pre a b c post h => by simp at h, fun pre a b c d post h => by simp at h⟩
  have hv : (Mask.Op.stru [] [] []).Valid (run (exEnv std) (new heap) []).mask := ⟨List.Perm.refl _, List.Perm.refl _⟩
  have hsym : SymmetricFor std (tableNow heap (lastTable []) []) x := by
    have e : tableNow heap (lastTable []) [] = ⟨[], []⟩ := rfl
    rw [e]
    intro a ha b hb
    have ha : a ∈ exIons.atoms := ha
    have hb : b ∈ exIons.atoms := hb
    fin_cases ha <;> fin_cases hb
    · rfl
    · rfl
    · rfl
    · rfl
  obtain ⟨μ, hμ⟩ := goes_by_types (maskNow []) (Or.inr rfl)
  have h := bvs_factors_partial (exEnv std) (exEnv_ok std) heap heap [] [] hp hp rfl rfl rfl rfl rfl rfl (dilute_spec (1 / 2) _) (fun _ => Iff.rfl) ⟨rfl, by decide⟩ hsym
    μ (hμ _) (hμ _) trivial (fun _ _ _ _ => rfl) (by decide) [] [] hv (exGen x) (fun R => (gen_exists _ _ _).choose_spec)
    trivial (fun _ _ _ _ => rfl) (by decide) [] [] hv (exGen x') (fun R => (gen_exists _ _ _).choose_spec)
  exact ⟨(h 0 (by decide) 0 (by decide) rfl).1, (h 1 (by decide) 1 (by decide) rfl).1⟩

end Verif.BVHist

namespace Verif.OlpHist
open Verif.BondGen Verif.Eval Verif.R3 Verif.Lattice Verif.Diff Verif.KindDiff Verif.Geo Verif.Overlap Verif.AssocMap
open Verif.BVHist (exIons exGen goes_by_types)
open Verif.PDFHist (dilute dilute_spec)

/-- The same for overlaps. -/
example (num : List Char → Option ℝ) (heap : ℕ → RTable) : let x := exIons; let x' := dilute (1 / 2) exIons
    let s := run num (new heap) [.eval x [] [] (exGen x)]
    let s' := run num (new heap) [.eval x' [] [] (exGen x')]
    (s'.coordinations x')[1]? = (s.coordinations x)[1]?.map (((1 / 2 : ℚ) : ℝ) * ·) ∧ s'.totalSquareOverlap x' = ((1 / 2 : ℚ) : ℝ) ^ 2 * s.totalSquareOverlap x := by
  intro x x' s s'
  have hp : Proper num heap [] := ⟨fun pre op post h => by simp at h, fun pre a b c post h => by simp at h, fun pre a b c d post h => by simp at h⟩
  have hv : (Mask.Op.stru [] [] []).Valid (run num (new heap) []).mask := ⟨List.Perm.refl _, List.Perm.refl _⟩
  obtain ⟨μ, hμ⟩ := goes_by_types (maskNow []) (Or.inr rfl)
  have h := overlap_factors num heap heap [] [] hp hp rfl rfl rfl rfl rfl rfl (x := x) (q := 1 / 2) (by norm_num) (dilute_spec _ _) μ (hμ _) (hμ _)
    trivial (by decide) [] [] hv (exGen x) (fun lo hi => (gen_exists _ _ _).choose_spec)
    trivial (by decide) [] [] hv (exGen x') (fun lo hi => (gen_exists _ _ _).choose_spec)
  exact ⟨(h.1 1 (by decide) 1 (by decide) rfl).2.1, h.2.1⟩

end Verif.OlpHist
