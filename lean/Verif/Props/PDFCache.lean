import Verif.Model.PDFCache
import Verif.Props.Mask
import Verif.Props.Debye
/-
C59: normalization of the PDF.  The scattering factors, the scale and the slope of the linear baseline that
`PDFCalculator` derives from the structure and the mask.
-/
set_option linter.unusedSectionVars false
namespace Verif.PDFCache
open Verif.AssocMap

/-! ### Specification -/

/-- Occupancy times multiplicity of the `i`-th site, zero outside the structure. -/
def wt (sites : List Site) (i : Nat) : ℝ := (sites.map fun s => s.occ * (s.mult : ℝ)).getD i 0

/-- The occupancy-weighted number of atoms. -/
def atoms (sites : List Site) : ℝ := (sites.map fun s => s.occ * (s.mult : ℝ)).sum

/-- The average scattering factor: sum of factor × occupancy × multiplicity, per atom. -/
noncomputable def fAverage (lookup : String → ℝ) (sites : List Site) : ℝ :=
  (sites.map fun s => lookup s.typ * s.occ * (s.mult : ℝ)).sum / atoms sites

/-- The weight of the pairs that the mask lets through, as a fraction of all ordered pairs. -/
noncomputable def activeFraction (mask : Nat → Nat → Bool) (sites : List Site) : ℝ :=
  (∑ i ∈ Finset.range sites.length, ∑ j ∈ Finset.range sites.length,
    if mask i j = true then wt sites i * wt sites j else 0) / atoms sites ^ 2

/-! ### Scattering factors -/

theorem sfLoop_get (lookup : String → ℝ) (sites : List Site) (m : List (String × ℝ))
    (hm : ∀ t v, find m t = some v → v = lookup t) (i : Nat) :
    (sfLoop lookup sites m)[i]? = (sites[i]?).map fun s => lookup s.typ * s.occ := by
  induction sites generalizing m i with
  | nil => simp [sfLoop]
  | cons s ss ih =>
    unfold sfLoop
    cases hf : find m s.typ with
    | some v =>
      simp only
      cases i with
      | zero => rw [List.getElem?_cons_zero, List.getElem?_cons_zero, hm _ _ hf]; rfl
      | succ i => rw [List.getElem?_cons_succ, List.getElem?_cons_succ]; exact ih m hm i
    | none =>
      simp only
      cases i with
      | zero => rfl
      | succ i =>
        rw [List.getElem?_cons_succ, List.getElem?_cons_succ]
        refine ih _ (fun t v h => ?_) i
        unfold find at h
        by_cases e : s.typ = t
        · simp only [if_pos e, Option.some.injEq] at h; rw [← h, e]
        · simp only [if_neg e] at h; exact hm t v h

/-- C59. The factor kept for a site is that of its atom type times its own occupancy, for every structure. -/
theorem sfSite_spec (lookup : String → ℝ) (dflt : Bool) (inv : List (Int × Int)) (sites : List Site) (i : Nat) (s : Site)
    (h : sites[i]? = some s) : (cacheOf lookup dflt inv sites).sfSite i = lookup s.typ * s.occ := by
  unfold Cache.sfSite cacheOf
  simp only
  rw [List.getD_eq_getElem?_getD, sfLoop_get _ _ _ (by intro t v h; simp [find] at h), h]
  rfl

theorem sfLoop_eq (lookup : String → ℝ) (sites : List Site) :
    sfLoop lookup sites [] = sites.map fun s => lookup s.typ * s.occ := by
  apply List.ext_getElem?
  intro i
  rw [sfLoop_get _ _ _ (by intro t v h; simp [find] at h), List.getElem?_map]

theorem foldl_sum {α : Type} (f : α → ℝ) (l : List α) (a : ℝ) :
    l.foldl (fun t x => t + f x) a = a + (l.map f).sum := by
  induction l generalizing a with
  | nil => simp
  | cons x l ih => rw [List.foldl_cons, ih, List.map_cons, List.sum_cons, add_assoc]

theorem totalOccupancy_eq (sites : List Site) : Debye.totalOccupancy sites = atoms sites := by
  unfold Debye.totalOccupancy atoms
  rw [foldl_sum, zero_add]

theorem totsf_eq (lookup : String → ℝ) (sites : List Site) :
    totsf (sfLoop lookup sites []) sites = (sites.map fun s => lookup s.typ * s.occ * (s.mult : ℝ)).sum := by
  unfold totsf
  rw [foldl_sum (fun si : Site × Nat => (sfLoop lookup sites []).getD si.2 0 * (si.1.mult : ℝ)), zero_add]
  congr 1
  apply List.ext_getElem?
  intro i
  rw [List.getElem?_map, List.getElem?_map, List.getElem?_zipIdx]
  cases h : sites[i]? with
  | none => rfl
  | some s =>
    simp only [Option.map_some, Nat.zero_add]
    rw [List.getD_eq_getElem?_getD, sfLoop_eq, List.getElem?_map, h]
    rfl

/-- C59. The scale of the RDF is 1 / (N ⟨f⟩²), and zero for an empty structure or a vanishing average. -/
theorem rdfScale_spec (lookup : String → ℝ) (dflt : Bool) (inv : List (Int × Int)) (sites : List Site) :
    (cacheOf lookup dflt inv sites).sfaverage = fAverage lookup sites ∧
    (cacheOf lookup dflt inv sites).totocc = atoms sites ∧
    (cacheOf lookup dflt inv sites).rdfScale =
      if atoms sites = 0 ∨ fAverage lookup sites = 0 then 0 else 1 / (atoms sites * fAverage lookup sites ^ 2) := by
  have h1 : (cacheOf lookup dflt inv sites).sfaverage = fAverage lookup sites := by
    unfold cacheOf fAverage
    simp only
    rw [totalOccupancy_eq, totsf_eq]
    split
    · next h => rw [h, div_zero]
    · rfl
  have h2 : (cacheOf lookup dflt inv sites).totocc = atoms sites := by
    unfold cacheOf; simp only; exact totalOccupancy_eq sites
  refine ⟨h1, h2, ?_⟩
  unfold Cache.rdfScale
  rw [h1, h2]
  by_cases h : atoms sites = 0 ∨ fAverage lookup sites = 0
  · rw [if_pos h, if_pos (by rcases h with h | h <;> rw [h] <;> simp)]
  · rw [if_neg h, if_neg (fun e => h (mul_eq_zero.1 e)), pow_two, mul_assoc]

/-! ### Masks -/

/-- The exceptions of a reachable mask are a set of pairs `(i, j)` with `i ≤ j`. -/
def InvOK (s : Mask.State) : Prop := s.inv.Nodup ∧ ∀ p ∈ s.inv, p.1 ≤ p.2

theorem invOK_value (s : Mask.State) (h : InvOK s) (i j : Int) (m : Bool) : InvOK (Mask.setPairMaskValue s i j m).1 := by
  unfold Mask.setPairMaskValue InvOK
  simp only
  have hn : (Mask.norm i j).1 ≤ (Mask.norm i j).2 := by unfold Mask.norm; split <;> simp only <;> omega
  split
  · refine ⟨h.1.filter _, fun p hp => h.2 p (List.mem_filter.1 hp).1⟩
  · unfold setInsert
    split
    · exact h
    · next hx =>
      refine ⟨List.nodup_cons.2 ⟨hx, h.1⟩, fun p hp => ?_⟩
      rcases List.mem_cons.1 hp with rfl | hp
      · exact hn
      · exact h.2 p hp

theorem invOK_foldl {α : Type} (f : Mask.State → α → Mask.State) (hf : ∀ s a, InvOK s → InvOK (f s a)) (l : List α) (s : Mask.State)
    (h : InvOK s) : InvOK (l.foldl f s) := by
  induction l generalizing s with
  | nil => exact h
  | cons a l ih => exact ih _ (hf s a h)

theorem invOK_row (s : Mask.State) (k : Int) (m : Bool) (h : InvOK s) : InvOK (Mask.setRow s k m) :=
  by
    unfold Mask.setRow
    exact invOK_foldl (fun (s : Mask.State) (l : Nat) => (Mask.setPairMaskValue s k (l : Int) m).1)
      (fun s l h => invOK_value s h k l m) _ s h

theorem invOK_congr {s t : Mask.State} (e : t.inv = s.inv) (h : InvOK s) : InvOK t := by unfold InvOK; rw [e]; exact h

theorem invOK_reach {s : Mask.State} (h : Mask.Reach s) : InvOK s := by
  have nil : ∀ t : Mask.State, t.inv = [] → InvOK t := fun t e => by unfold InvOK; rw [e]; simp
  induction h with
  | init => exact nil _ rfl
  | @step s h op hv ih =>
    cases op with
    | maskAll m => exact nil _ (by simp only [Mask.step, Mask.maskAllPairs])
    | invert => exact invOK_congr (s := s) (by simp only [Mask.step, Mask.invertMask]; rfl) ih
    | pair i j m =>
      simp only [Mask.step, Mask.setPairMask]
      have one : ∀ k, InvOK (Mask.setSiteAllMask s k m) := by
        intro k
        unfold Mask.setSiteAllMask
        simp only
        have := invOK_row { s with typ := [], site := put s.site k m } k m (invOK_congr (s := s) rfl ih)
        split
        · exact invOK_congr (s := Mask.setRow { s with typ := [], site := put s.site k m } k m) rfl this
        · exact this
      split
      · exact nil _ (by simp only [Mask.maskAllPairs])
      · split
        · exact one j
        · split
          · exact one i
          · unfold Mask.setOnePairMask
            simp only
            have := invOK_value { s with typ := [], site := (Mask.dropSite (Mask.dropSite s.site i m).1 j m).1 }
              (invOK_congr (s := s) rfl ih) i j m
            split
            · exact invOK_congr (s := (Mask.setPairMaskValue { s with typ := [], site := (Mask.dropSite (Mask.dropSite s.site i m).1 j m).1 } i j m).1) rfl this
            · exact this
    | typ a b m =>
      simp only [Mask.step, Mask.setTypeMask, Mask.setTypeMask']
      split
      · exact nil _ (by simp only [Mask.maskAllPairs])
      · have hite : ∀ (b : Bool) (t : Mask.State), t.inv = s.inv → InvOK (if b then t.click else t) := by
          intro b t e
          cases b
          · exact invOK_congr e ih
          · exact invOK_congr (s := s) e ih
        exact hite _ _ rfl
    | stru types sord tord =>
      simp only [Mask.step, Mask.setStructure, Mask.updateMaskData]
      split
      · exact invOK_foldl _ (fun s e h => invOK_row s e.1 e.2 h) _ _ (invOK_congr (s := s) rfl ih)
      · refine invOK_foldl _ (fun s tp h => ?_) _ _ (nil _ rfl)
        unfold Mask.applyTypePair
        simp only
        exact invOK_foldl _ (fun s p h => invOK_value s h _ _ _) _ _ h

theorem weight_eq (sites : List Site) (i : Nat) : weight sites (i : Int) = wt sites i := by
  unfold weight wt
  rw [Int.toNat_natCast, List.getD_eq_getElem?_getD, List.getElem?_map]
  cases sites[i]? <;> rfl

theorem atoms_eq (sites : List Site) : atoms sites = ∑ i ∈ Finset.range sites.length, wt sites i := by
  unfold atoms wt
  rw [Eval.finset_sum_range]
  congr 1
  apply List.ext_getElem
  · simp
  · intro i h1 h2
    have h : i < sites.length := by simpa using h1
    simp [h]

/-- The sum over the exceptions, seen from the ordered pairs of sites. -/
theorem invMaskTotal_eq (sites : List Site) (inv : List (Int × Int)) (hn : inv.Nodup) (hle : ∀ p ∈ inv, p.1 ≤ p.2) :
    invMaskTotal sites inv = ∑ i ∈ Finset.range sites.length, ∑ j ∈ Finset.range sites.length,
      if Mask.norm (i : Int) (j : Int) ∈ inv then wt sites i * wt sites j else 0 := by
  unfold invMaskTotal
  generalize hn' : sites.length = n
  have key : ∀ (l : List (Int × Int)) (a : ℝ), l.Nodup → (∀ p ∈ l, p.1 ≤ p.2) →
      l.foldl (fun t ij => if ij.1 < 0 ∨ ij.1 ≥ (n : Int) ∨ ij.2 < 0 ∨ ij.2 ≥ (n : Int) then t
        else t + (if ij.1 = ij.2 then 1 else 2) * weight sites ij.1 * weight sites ij.2) a =
      a + ∑ i ∈ Finset.range n, ∑ j ∈ Finset.range n,
        if Mask.norm (i : Int) (j : Int) ∈ l then wt sites i * wt sites j else 0 := by
    intro l
    induction l with
    | nil => intro a _ _; simp
    | cons p l ih =>
      intro a hnd hle
      rw [List.nodup_cons] at hnd
      rw [List.foldl_cons, ih _ hnd.2 (fun q hq => hle q (List.mem_cons_of_mem _ hq))]
      -- split the indicator of `p :: l`
      have hsplit : ∀ i j : Nat, (if Mask.norm (i : Int) (j : Int) ∈ p :: l then wt sites i * wt sites j else 0) =
          (if Mask.norm (i : Int) (j : Int) = p then wt sites i * wt sites j else 0) +
          (if Mask.norm (i : Int) (j : Int) ∈ l then wt sites i * wt sites j else 0) := by
        intro i j
        by_cases h1 : Mask.norm (i : Int) (j : Int) = p
        · rw [if_pos (by rw [h1]; simp), if_pos h1, if_neg (by rw [h1]; exact hnd.1), add_zero]
        · rw [if_neg h1, zero_add]
          refine if_congr ?_ rfl rfl
          rw [List.mem_cons]; tauto
      simp only [hsplit, Finset.sum_add_distrib]
      rw [← add_assoc]
      congr 1
      -- the contribution of one exception
      have hp := hle p (by simp)
      obtain ⟨a1, b1⟩ := p
      simp only at hp ⊢
      by_cases hb : a1 < 0 ∨ a1 ≥ (n : Int) ∨ b1 < 0 ∨ b1 ≥ (n : Int)
      · rw [if_pos hb]
        symm
        rw [add_eq_left]
        refine Finset.sum_eq_zero fun i hi => Finset.sum_eq_zero fun j hj => ?_
        rw [Finset.mem_range] at hi hj
        rw [if_neg]
        intro e
        unfold Mask.norm at e
        split at e <;> (rw [Prod.mk.injEq] at e; omega)
      · rw [if_neg hb]
        congr 1
        obtain ⟨i0, rfl⟩ := Int.eq_ofNat_of_zero_le (show 0 ≤ a1 by omega)
        obtain ⟨j0, rfl⟩ := Int.eq_ofNat_of_zero_le (show 0 ≤ b1 by omega)
        have hi0 : i0 < n := by omega
        have hj0 : j0 < n := by omega
        have hij : i0 ≤ j0 := by omega
        rw [weight_eq, weight_eq]
        have hcond : ∀ i j : Nat, Mask.norm (i : Int) (j : Int) = ((i0 : Int), (j0 : Int)) ↔
            (i = i0 ∧ j = j0) ∨ (i = j0 ∧ j = i0) := by
          intro i j
          unfold Mask.norm
          split <;> rw [Prod.mk.injEq] <;> omega
        simp only [hcond]
        by_cases he : i0 = j0
        · subst he
          rw [if_pos rfl, one_mul]
          have : ∀ i j : Nat, (if (i = i0 ∧ j = i0) ∨ (i = i0 ∧ j = i0) then wt sites i * wt sites j else 0) =
              if i = i0 then (if j = i0 then wt sites i0 * wt sites i0 else 0) else 0 := by
            intro i j
            by_cases h1 : i = i0
            · subst h1
              by_cases h2 : j = i
              · subst h2; simp
              · simp [h2]
            · simp [h1]
          simp only [this]
          simp [hi0]
        · have hne : ¬ (i0 : Int) = (j0 : Int) := by omega
          rw [if_neg hne]
          have : ∀ i j : Nat, (if (i = i0 ∧ j = j0) ∨ (i = j0 ∧ j = i0) then wt sites i * wt sites j else 0) =
              (if i = i0 then (if j = j0 then wt sites i0 * wt sites j0 else 0) else 0) +
              (if i = j0 then (if j = i0 then wt sites i0 * wt sites j0 else 0) else 0) := by
            intro i j
            by_cases h1 : i = i0
            · subst h1
              by_cases h2 : j = j0
              · subst h2; simp [he]
              · simp [h2, he]
            · by_cases h3 : i = j0
              · subst h3
                by_cases h4 : j = i0
                · subst h4; simp [h1, mul_comm]
                · simp [h1, h4]
              · simp [h1, h3]
          simp only [this, Finset.sum_add_distrib]
          simp [hi0, hj0]
          ring
  rw [key inv 0 hn hle, zero_add]

/-- C59. The active occupancy is the weight of the pairs let through by the mask per atom, for every mask that
can be reached by mask calls and structure changes and every structure with a positive number of atoms. -/
theorem activeocc_spec (lookup : String → ℝ) (m : Mask.State) (hm : Mask.Reach m) (sites : List Site)
    (hpos : 0 < atoms sites) :
    (cacheOf lookup m.dflt m.inv sites).activeocc =
      activeFraction (fun i j => Mask.getPairMask m i j) sites * atoms sites := by
  obtain ⟨h1, h2⟩ := invOK_reach hm
  have hne : atoms sites ≠ 0 := hpos.ne'
  have e : (cacheOf lookup m.dflt m.inv sites).activeocc =
      if m.dflt then atoms sites - invMaskTotal sites m.inv / atoms sites
      else invMaskTotal sites m.inv / atoms sites := by
    unfold cacheOf
    simp only
    rw [totalOccupancy_eq, if_pos hpos]
  rw [e, invMaskTotal_eq sites m.inv h1 h2]
  unfold activeFraction
  cases hd : m.dflt with
  | false =>
    have : ∀ i j : Nat, (if Mask.getPairMask m (i : Int) (j : Int) = true then wt sites i * wt sites j else 0) =
        if Mask.norm (i : Int) (j : Int) ∈ m.inv then wt sites i * wt sites j else 0 := by
      intro i j
      unfold Mask.getPairMask
      rw [hd]
      by_cases h : Mask.norm (i : Int) (j : Int) ∈ m.inv <;> simp [h]
    simp only [this, Bool.false_eq_true, if_false]
    field_simp
  | true =>
    have : ∀ i j : Nat, (if Mask.getPairMask m (i : Int) (j : Int) = true then wt sites i * wt sites j else 0) =
        wt sites i * wt sites j - if Mask.norm (i : Int) (j : Int) ∈ m.inv then wt sites i * wt sites j else 0 := by
      intro i j
      unfold Mask.getPairMask
      rw [hd]
      by_cases h : Mask.norm (i : Int) (j : Int) ∈ m.inv <;> simp [h]
    simp only [this, Finset.sum_sub_distrib, if_true]
    have sq : ∑ i ∈ Finset.range sites.length, ∑ j ∈ Finset.range sites.length, wt sites i * wt sites j =
        atoms sites ^ 2 := by
      rw [atoms_eq, pow_two, Finset.sum_mul_sum]
    rw [sq]
    generalize ∑ i ∈ Finset.range sites.length, ∑ j ∈ Finset.range sites.length,
      (if Mask.norm (i : Int) (j : Int) ∈ m.inv then wt sites i * wt sites j else 0) = X
    field_simp

/-- C59. The slope of a linear baseline is −4π times the number density times the fraction of pairs that the
mask lets through. -/
theorem slope_spec (lookup : String → ℝ) (m : Mask.State) (hm : Mask.Reach m) (sites : List Site) (density : ℝ)
    (hpos : 0 < atoms sites) :
    (cacheOf lookup m.dflt m.inv sites).slope density =
      -(4 * Real.pi * density * activeFraction (fun i j => Mask.getPairMask m i j) sites) := by
  unfold Cache.slope
  simp only
  rw [activeocc_spec lookup m hm sites hpos, (rdfScale_spec lookup m.dflt m.inv sites).2.1,
    if_neg (fun h => hpos.ne h), mul_div_assoc, div_self hpos.ne']
  ring

/-- C59. Without masks the fraction is one; with all pairs masked it is zero, so that the fractions of a partial
PDF and of its complement add up to one. -/
theorem activeFraction_laws (mask : Nat → Nat → Bool) (sites : List Site) (hpos : 0 < atoms sites) :
    activeFraction (fun _ _ => true) sites = 1 ∧ activeFraction (fun _ _ => false) sites = 0 ∧
    activeFraction mask sites + activeFraction (fun i j => !mask i j) sites = 1 := by
  have sq : ∑ i ∈ Finset.range sites.length, ∑ j ∈ Finset.range sites.length, wt sites i * wt sites j =
      atoms sites ^ 2 := by
    rw [atoms_eq, pow_two, Finset.sum_mul_sum]
  have hne : atoms sites ^ 2 ≠ 0 := pow_ne_zero 2 hpos.ne'
  refine ⟨?_, ?_, ?_⟩
  · unfold activeFraction
    simp only [if_true]
    rw [sq, div_self hne]
  · unfold activeFraction; simp
  · unfold activeFraction
    rw [← add_div, ← Finset.sum_add_distrib]
    simp only [← Finset.sum_add_distrib]
    rw [div_eq_one_iff_eq hne, ← sq]
    refine Finset.sum_congr rfl fun i _ => Finset.sum_congr rfl fun j _ => ?_
    by_cases h : mask i j = true
    · simp [h]
    · rw [Bool.not_eq_true] at h; simp [h]

/-- A concrete case: Na and Cl, the pair Na-Na masked: three of four ordered pairs remain. -/
noncomputable def exSites : List Site := [⟨"Na", 1, 1⟩, ⟨"Cl", 1, 1⟩]

/-- The mask of the example. -/
def exMask : Mask.State := Mask.step (Mask.step Mask.init (.stru ["Na", "Cl"] [] [])) (.pair 0 0 false)

example : Mask.Reach exMask ∧ 0 < atoms exSites ∧
    activeFraction (fun i j => Mask.getPairMask exMask i j) exSites = 3 / 4 := by
  refine ⟨.step (.step .init (.stru ["Na", "Cl"] [] []) ⟨List.Perm.refl _, List.Perm.refl _⟩) (.pair 0 0 false) trivial, by norm_num [atoms, exSites], ?_⟩
  have h : ∀ i j : Nat, Mask.getPairMask exMask i j = !(decide (i = 0) && decide (j = 0)) := by
    intro i j
    have : exMask.inv = [(0, 0)] ∧ exMask.dflt = true := by decide
    unfold Mask.getPairMask
    rw [this.1, this.2]
    have hn : Mask.norm (i : Int) (j : Int) ∈ [((0 : Int), (0 : Int))] ↔ i = 0 ∧ j = 0 := by
      rw [List.mem_singleton]; unfold Mask.norm
      split <;> rw [Prod.mk.injEq] <;> omega
    by_cases hc : i = 0 ∧ j = 0
    · rw [if_pos (hn.2 hc)]; simp [hc.1, hc.2]
    · rw [if_neg (fun e => hc (hn.1 e))]
      by_cases hi : i = 0
      · have hj : j ≠ 0 := fun e => hc ⟨hi, e⟩
        simp [hj]
      · simp [hi]
  unfold activeFraction
  simp only [h]
  norm_num [exSites, Finset.sum_range_succ, wt, atoms]

end Verif.PDFCache
