import Verif.Props.SameResults
import Verif.Props.PDFModels
/-! C97: the RDF and PDF do not depend on how a structure is described. -/
set_option linter.unusedSectionVars false
namespace Verif.PDFHist
open Verif.Eval Verif.Diff Verif.KindDiff Verif.History Verif.PDFGrid Verif.PDFCache Verif.R3 Verif.Lattice Verif.Geo
open scoped BigOperators

/-! ### Specification -/

/-- The atoms have the same displacements in both descriptions: the same tensors, and the same displacements along a vector and along the moved vector.
Tensors of isotropic atoms have this property, and all tensors when the atoms are not turned. -/
def SameDisplacements (x x' : RStru) (σ : ℕ → ℕ) (ρ : V3 → V3) : Prop :=
  ∀ k a', x'.atoms[k]? = some a' → ∃ a, x.atoms[σ k]? = some a ∧ a'.anisotropy = a.anisotropy ∧ a'.u = a.u ∧
    ∀ p q, along a' (V3.sub (ρ p) (ρ q)) = along a (V3.sub p q)

/-- The mask treats the sites of both descriptions alike. -/
def SameMask (m : ℕ → ℕ → Option Atom → Option Atom → Bool) (x x' : RStru) (σ : ℕ → ℕ) : Prop :=
  ∀ i < x'.atoms.length, ∀ k < x'.atoms.length, m i k x'.atoms[i]? x'.atoms[k]? = m (σ i) (σ k) x.atoms[σ i]? x.atoms[σ k]?

/-! ### Averages over the atoms -/

theorem sum_sites (x : RStru) (f : Debye.Site → ℝ) :
    ((sitesOf x).map f).sum = ∑ i ∈ Finset.range x.atoms.length, (x.atoms[i]?.map fun a => f ⟨a.atomtype, (a.occupancy : ℝ), (geom x).mult i⟩).getD 0 := by
  unfold sitesOf
  rw [List.map_map]
  have key : ∀ (l : List Atom) (n : ℕ), ((l.zipIdx n).map (f ∘ fun p => (⟨p.1.atomtype, (p.1.occupancy : ℝ), (geom x).mult p.2⟩ : Debye.Site))).sum =
      ∑ i ∈ Finset.range l.length, (l[i]?.map fun a => f ⟨a.atomtype, (a.occupancy : ℝ), (geom x).mult (i + n)⟩).getD 0 := by
    intro l
    induction l with
    | nil => intro n; simp
    | cons a l ih =>
      intro n
      rw [List.zipIdx_cons, List.map_cons, List.sum_cons, ih, List.length_cons, Finset.sum_range_succ']
      rw [add_comm]
      congr 1
      · refine Finset.sum_congr rfl fun i _ => ?_
        rw [List.getElem?_cons_succ, show i + 1 + n = i + (n + 1) by ring]
      · simp
  simpa using key x.atoms 0

variable {x x' : RStru} {σ : ℕ → ℕ} {ρ : V3 → V3} {N : ℝ}

theorem same_geo_total (h : SameStructure x x' σ ρ) (hN : Cells x x' σ N) (A A' : ℕ → ℝ) (hA : ∀ k < x'.atoms.length, A' k = A (σ k)) :
    ∑ k ∈ Finset.range x'.atoms.length, ((geom x').mult k : ℝ) * A' k = N * ∑ j ∈ Finset.range x.atoms.length, ((geom x).mult j : ℝ) * A j := by
  have := same_total h.geo N (by rw [geom_cnt, geom_cnt]; exact hN.2) A A' (by rw [geom_cnt]; exact hA)
  rwa [geom_cnt, geom_cnt] at this

theorem atoms_same (h : SameStructure x x' σ ρ) (hN : Cells x x' σ N) : atoms (sitesOf x') = N * atoms (sitesOf x) := by
  have e : ∀ y : RStru, atoms (sitesOf y) = ∑ i ∈ Finset.range y.atoms.length, ((geom y).mult i : ℝ) * (y.atoms[i]?.map fun a => (a.occupancy : ℝ)).getD 0 := by
    intro y
    unfold atoms
    rw [sum_sites]
    refine Finset.sum_congr rfl fun i hi => ?_
    rw [List.getElem?_eq_getElem (Finset.mem_range.1 hi)]
    simp [mul_comm]
  rw [e, e]
  refine same_geo_total h hN _ _ fun k hk => ?_
  rw [List.getElem?_eq_getElem hk, List.getElem?_eq_getElem (h.lt hk)]
  simp [(h.get hk).2]

theorem fAverage_same (h : SameStructure x x' σ ρ) (hN : Cells x x' σ N) (lookup : String → ℝ) :
    fAverage lookup (sitesOf x') = fAverage lookup (sitesOf x) := by
  have e : ∀ y : RStru, fAverage lookup (sitesOf y) = (∑ i ∈ Finset.range y.atoms.length, ((geom y).mult i : ℝ) *
      (y.atoms[i]?.map fun a => lookup a.atomtype * (a.occupancy : ℝ)).getD 0) / atoms (sitesOf y) := by
    intro y
    unfold fAverage
    rw [sum_sites]
    congr 1
    refine Finset.sum_congr rfl fun i hi => ?_
    rw [List.getElem?_eq_getElem (Finset.mem_range.1 hi)]
    simp [mul_comm]
  rw [e, e, atoms_same h hN, same_geo_total h hN (fun j => (x.atoms[j]?.map fun a => lookup a.atomtype * (a.occupancy : ℝ)).getD 0)]
  · rw [mul_div_mul_left _ _ hN.1.ne']
  · intro k hk
    rw [List.getElem?_eq_getElem hk, List.getElem?_eq_getElem (h.lt hk)]
    simp [(h.get hk).1, (h.get hk).2]

theorem atomFactor_same (h : SameStructure x x' σ ρ) (c : PCfg) {k : ℕ} (hk : k < x'.atoms.length) : atomFactor c x'.atoms[k]? = atomFactor c x.atoms[σ k]? := by
  unfold atomFactor
  rw [List.getElem?_eq_getElem hk, List.getElem?_eq_getElem (h.lt hk)]
  simp [(h.get hk).1, (h.get hk).2]

theorem wt_eq (y : RStru) (i : ℕ) : wt (sitesOf y) i = (geom y).mult i * (y.atoms[i]?.map fun a => (a.occupancy : ℝ)).getD 0 := by
  unfold wt sitesOf
  rw [List.map_map, List.getD_eq_getElem?_getD, List.getElem?_map, List.getElem?_zipIdx]
  cases y.atoms[i]? with
  | none => simp
  | some a => simp [mul_comm]

theorem activeFraction_same (h : SameStructure x x' σ ρ) (hN : Cells x x' σ N) (m m' : ℕ → ℕ → Bool)
    (hm : ∀ i < x'.atoms.length, ∀ k < x'.atoms.length, m' i k = m (σ i) (σ k)) :
    activeFraction m' (sitesOf x') = activeFraction m (sitesOf x) := by
  have len : ∀ y : RStru, (sitesOf y).length = y.atoms.length := fun y => by unfold sitesOf; simp
  have e : ∀ (y : RStru) (m : ℕ → ℕ → Bool), activeFraction m (sitesOf y) = (∑ i ∈ Finset.range y.atoms.length, ((geom y).mult i : ℝ) *
      ((y.atoms[i]?.map fun a => (a.occupancy : ℝ)).getD 0 * ∑ j ∈ Finset.range y.atoms.length, ((geom y).mult j : ℝ) *
        (if m i j = true then (y.atoms[j]?.map fun a => (a.occupancy : ℝ)).getD 0 else 0))) / atoms (sitesOf y) ^ 2 := by
    intro y m
    unfold activeFraction
    rw [len]
    congr 1
    refine Finset.sum_congr rfl fun i _ => ?_
    rw [Finset.mul_sum, Finset.mul_sum]
    refine Finset.sum_congr rfl fun j _ => ?_
    rw [wt_eq, wt_eq]
    split
    · ring
    · simp
  have occ : ∀ k < x'.atoms.length, (x'.atoms[k]?.map fun a => (a.occupancy : ℝ)).getD 0 = (x.atoms[σ k]?.map fun a => (a.occupancy : ℝ)).getD 0 := by
    intro k hk
    rw [List.getElem?_eq_getElem hk, List.getElem?_eq_getElem (h.lt hk)]
    simp [(h.get hk).2]
  rw [e, e, atoms_same h hN, same_geo_total h hN (fun i => (x.atoms[i]?.map fun a => (a.occupancy : ℝ)).getD 0 *
    (N * ∑ j ∈ Finset.range x.atoms.length, ((geom x).mult j : ℝ) * (if m i j = true then (x.atoms[j]?.map fun a => (a.occupancy : ℝ)).getD 0 else 0)))]
  · have hs : ∀ f g : ℕ → ℝ, (∑ i ∈ Finset.range x.atoms.length, ((geom x).mult i : ℝ) * (f i * (N * g i))) =
        N * ∑ i ∈ Finset.range x.atoms.length, ((geom x).mult i : ℝ) * (f i * g i) := by
      intro f g
      rw [Finset.mul_sum]
      exact Finset.sum_congr rfl fun i _ => by ring
    rw [hs, ← mul_assoc, ← sq, mul_pow, mul_div_mul_left _ _ (pow_ne_zero 2 hN.1.ne')]
  · intro i hi
    rw [occ i hi, same_geo_total h hN (fun j => if m (σ i) j = true then (x.atoms[j]?.map fun a => (a.occupancy : ℝ)).getD 0 else 0)]
    intro k hk
    rw [hm i hi k hk, occ k hk]

/-- The number density of periodic structures, when the cell is as many times larger. -/
theorem density_same (h : SameStructure x x' σ ρ) (hN : Cells x x' σ N) (vol : RStru → ℝ)
    (hv : ∀ y ∈ [x, x'], match y.kind with | .atomic => False | .periodic L => vol y = L.volume | .crystal L _ => vol y = L.volume) (hV : vol x' = N * vol x) :
    numberDensity x' = numberDensity x := by
  have e : ∀ y ∈ [x, x'], numberDensity y = atoms (sitesOf y) / vol y := by
    intro y hy
    have := hv y hy
    unfold numberDensity
    cases hk : y.kind with
    | atomic => rw [hk] at this; exact this.elim
    | periodic L => rw [hk] at this; dsimp only at this ⊢; rw [this]
    | crystal L o => rw [hk] at this; dsimp only at this ⊢; rw [this]
  rw [e x (by simp), e x' (by simp), atoms_same h hN, hV, mul_div_mul_left _ _ hN.1.ne']

/-! ### The sum over the pairs -/

/-- The sum over the pairs is the same, for terms of bounded range that depend on the width and length of the bond, and widths that depend on its length. -/
theorem struRDF_same (c : PCfg) (h : SameStructure x x' σ ρ) (hN : Cells x x' σ N) (hok : (geom x).Ok) (hok' : (geom x').Ok)
    (hm : SameMask c.mask x x' σ) (hw : ∀ i < x'.atoms.length, ∀ k < x'.atoms.length, ∀ v, c.W x' i k v = c.W x (σ i) (σ k) v) (T : ℝ → V3 → ℝ)
    (hT : ∀ i < x.atoms.length, ∀ j < x.atoms.length, Geo.Fits (geom x) (geom x') ρ fun v => T (c.W x i j v) v) (H : ℝ)
    (hH : ∀ i < x.atoms.length, ∀ j < x.atoms.length, ∀ v, (geom x).IsVec i j v → T (c.W x i j v) v ≠ 0 → InRange 0 H (V3.norm v))
    (hH' : ∀ i < x'.atoms.length, ∀ k < x'.atoms.length, ∀ v, (geom x').IsVec i k v → T (c.W x' i k v) v ≠ 0 → InRange 0 H (V3.norm v)) :
    struRDF c x' T = struRDF c x T := by
  have cutoff : ∀ y : RStru, (∀ i < y.atoms.length, ∀ j < y.atoms.length, ∀ v, (geom y).IsVec i j v → T (c.W y i j v) v ≠ 0 → InRange 0 H (V3.norm v)) →
      ∀ i < y.atoms.length, ∀ j < y.atoms.length, (geom y).sum i j (fun v => T (c.W y i j v) v) = (geom y).sum i j (Geo.cut 0 H fun v => T (c.W y i j v) v) := by
    intro y hy i hi j hj
    refine sum_congr_vec _ _ _ _ _ fun v hv => ?_
    unfold Geo.cut
    by_cases hr : InRange 0 H (V3.norm v)
    · rw [if_pos hr]
    · rw [if_neg hr]
      by_contra hne
      exact hr (hy i hi j hj v hv hne)
  -- both double sums as weighted sums over the sites
  have r : ∀ y : RStru, (∀ i < y.atoms.length, ∀ j < y.atoms.length, ∀ v, (geom y).IsVec i j v → T (c.W y i j v) v ≠ 0 → InRange 0 H (V3.norm v)) →
      (∑ i ∈ Finset.range y.atoms.length, ∑ j ∈ Finset.range y.atoms.length, if c.mask i j y.atoms[i]? y.atoms[j]? = true then
      ((geom y).mult i : ℝ) * (atomFactor c y.atoms[i]? * atomFactor c y.atoms[j]? * (geom y).sum i j fun v => T (c.W y i j v) v) else 0) =
      ∑ i ∈ Finset.range y.atoms.length, ((geom y).mult i : ℝ) * ∑ j ∈ Finset.range y.atoms.length,
        if c.mask i j y.atoms[i]? y.atoms[j]? = true then atomFactor c y.atoms[i]? * atomFactor c y.atoms[j]? *
          (geom y).sum i j (Geo.cut 0 H fun v => T (c.W y i j v) v) else 0 := by
    intro y hy
    refine Finset.sum_congr rfl fun i hi => ?_
    rw [Finset.mul_sum]
    refine Finset.sum_congr rfl fun j hj => ?_
    rw [mul_ite, mul_zero, cutoff y hy i (Finset.mem_range.1 hi) j (Finset.mem_range.1 hj)]
  unfold struRDF
  rw [fAverage_same h hN, atoms_same h hN, mul_assoc, r x hH, r x' hH', same_geo_total h hN (fun i => ∑ j ∈ Finset.range x.atoms.length,
        if c.mask i j x.atoms[i]? x.atoms[j]? = true then atomFactor c x.atoms[i]? * atomFactor c x.atoms[j]? *
          (geom x).sum i j (Geo.cut 0 H fun v => T (c.W x i j v) v) else 0)]
  · rw [mul_div_mul_left _ _ hN.1.ne']
  · intro i hi
    have st := same_terms_vec h.geo hok hok' 0 H (fun i j v => T (c.W x i j v) v) (fun i k v => T (c.W x' i k v) v)
      (fun i j => c.mask i j x.atoms[i]? x.atoms[j]?) (fun i j => c.mask i j x'.atoms[i]? x'.atoms[j]?)
      (fun i j => atomFactor c x.atoms[i]? * atomFactor c x.atoms[j]?) (fun i j => atomFactor c x'.atoms[i]? * atomFactor c x'.atoms[j]?)
      (by rw [geom_cnt]; exact hm) (by
        rw [geom_cnt]
        intro i hi k hk
        rw [atomFactor_same h c hi, atomFactor_same h c hk]) (by
        rw [geom_cnt]
        intro i hi k hk v _
        rw [hw i hi k hk v]) (by rw [geom_cnt]; exact hT) i (by rw [geom_cnt]; exact hi)
    rw [geom_cnt, geom_cnt] at st
    exact st

/-! ### The peaks of the library -/

theorem maxUii_same (h : SameStructure x x' σ ρ) (hok : (geom x).Ok) (hd : SameDisplacements x x' σ ρ) :
    Peak.maxUii (x'.atoms.map peakSite) = Peak.maxUii (x.atoms.map peakSite) := by
  have mem1 : ∀ s ∈ x'.atoms.map peakSite, ∃ t ∈ x.atoms.map peakSite, t.U = s.U := by
    intro s hs
    obtain ⟨a', ha', rfl⟩ := List.mem_map.1 hs
    obtain ⟨k, hk, rfl⟩ := List.mem_iff_getElem.1 ha'
    obtain ⟨a, h1, -, h4, -⟩ := hd k _ (List.getElem?_eq_getElem hk)
    refine ⟨peakSite a, List.mem_map_of_mem (List.mem_of_getElem? h1), ?_⟩
    show (Geo.siteOf a).uij = (Geo.siteOf x'.atoms[k]).uij
    unfold Geo.siteOf
    rw [h4]
  have mem2 : ∀ s ∈ x.atoms.map peakSite, ∃ t ∈ x'.atoms.map peakSite, t.U = s.U := by
    intro s hs
    obtain ⟨a, ha, rfl⟩ := List.mem_map.1 hs
    obtain ⟨j, hj, rfl⟩ := List.mem_iff_getElem.1 ha
    obtain ⟨k, hk, rfl⟩ := h.onto hok hj
    obtain ⟨a, h1, -, h4, -⟩ := hd k _ (List.getElem?_eq_getElem hk)
    refine ⟨peakSite x'.atoms[k], List.mem_map_of_mem (List.getElem_mem hk), ?_⟩
    rw [List.getElem?_eq_getElem hj] at h1
    obtain rfl := Option.some.inj h1
    show (Geo.siteOf x'.atoms[k]).uij = (Geo.siteOf _).uij
    unfold Geo.siteOf
    rw [h4]
  have le : ∀ l l' : List Peak.Site, (∀ s ∈ l, ∃ t ∈ l', t.U = s.U) → Peak.maxUii l ≤ Peak.maxUii l' := by
    intro l l' hl
    obtain ⟨-, -, h3⟩ := Peak.maxUii_spec l
    obtain ⟨g1, g2, -⟩ := Peak.maxUii_spec l'
    rcases h3 with h3 | ⟨s, hs, h3⟩
    · rw [h3]; exact g1
    · obtain ⟨t, ht, e⟩ := hl s hs
      obtain ⟨a1, a2, a3⟩ := g2 t ht
      rw [e] at a1 a2 a3
      rcases h3 with h3 | h3 | h3 <;> rw [h3] <;> assumption
  exact le_antisymm (le _ _ mem1) (le _ _ mem2)

theorem tails_same (cf : LCfg) (h : SameStructure x x' σ ρ) (hok : (geom x).Ok) (hd : SameDisplacements x x' σ ρ) : cf.tails x' = cf.tails x := by
  have hu := maxUii_same h hok hd
  unfold LCfg.tails
  congr 1
  unfold PWM.maxWidth
  cases cf.pwm with
  | constant c => rfl
  | debyeWaller => dsimp only; unfold Peak.dwMaxWidth; rw [hu]
  | jeong j => dsimp only; unfold Peak.Jeong.maxWidth Peak.dwMaxWidth; rw [hu]

theorem width_same (w : PWM) (hd : SameDisplacements x x' σ ρ) (i k : ℕ) (hi : i < x'.atoms.length) (hk : k < x'.atoms.length) (v : V3) :
    pairWidth w x'.atoms[i]? x'.atoms[k]? v = pairWidth w x.atoms[σ i]? x.atoms[σ k]? v := by
  obtain ⟨a, a1, a3, a4, -⟩ := hd i _ (List.getElem?_eq_getElem hi)
  obtain ⟨b, b1, b3, b4, -⟩ := hd k _ (List.getElem?_eq_getElem hk)
  rw [a1, b1, List.getElem?_eq_getElem hi, List.getElem?_eq_getElem hk]
  have e : ∀ a b : Atom, a.anisotropy = b.anisotropy → a.u = b.u → along a v = along b v := by
    intro a b h1 h2
    unfold along
    rw [h1, h2]
    unfold Geo.siteOf
    rw [h2]
  unfold pairWidth
  dsimp only
  rw [e _ _ a3 a4, e _ _ b3 b4]

theorem along_same {a b : Atom} (h1 : a.anisotropy = b.anisotropy) (h2 : a.u = b.u) (v : V3) : along a v = along b v := by
  unfold along
  rw [h1, h2]
  unfold Geo.siteOf
  rw [h2]

/-- Operations keep the widths of the bonds between atoms whose displacements they keep. -/
theorem keeps_width (w : PWM) {y : RStru} (hok : (geom y).Ok) (hd : Displaced y) (T : ℝ → V3 → ℝ)
    (hT : ∀ u v v', V3.norm v = V3.norm v' → T u v = T u v') (a b : Option Atom) (ha : ∀ c ∈ a, ∃ c' ∈ y.atoms, ∀ v, along c v = along c' v)
    (hb : ∀ c ∈ b, ∃ c' ∈ y.atoms, ∀ v, along c v = along c' v) :
    (geom y).Keeps fun v => T (pairWidth w a b v) v := by
  obtain ⟨kind, atoms⟩ := y
  cases kind with
  | atomic => trivial
  | periodic L => trivial
  | crystal L o =>
    intro op hop v
    have hn : V3.norm (rotC L op v) = V3.norm v := rotC_norm hok.1.lat hok.2 op hop v
    have e : pairWidth w a b (rotC L op v) = pairWidth w a b v := by
      cases a with
      | none => cases b <;> rfl
      | some a =>
        cases b with
        | none => rfl
        | some b =>
          obtain ⟨a', a1, a2⟩ := ha a rfl
          obtain ⟨b', b1, b2⟩ := hb b rfl
          show fwhm w (V3.norm (rotC L op v)) (along a (rotC L op v) + along b (rotC L op v)) = fwhm w (V3.norm v) (along a v + along b v)
          rw [a2, b2, a2, b2, (hd.2 a' a1).2.2 op hop, (hd.2 b' b1).2.2 op hop, hn]
    show T (pairWidth w a b (rotC L op v)) (rotC L op v) = T (pairWidth w a b v) v
    rw [e]
    exact hT _ _ _ hn

/-- What is drawn for a bond is the same in both descriptions. -/
theorem fits_width (w : PWM) (h : SameStructure x x' σ ρ) (hok : (geom x).Ok) (hok' : (geom x').Ok) (hx : Displaced x) (hx' : Displaced x')
    (hd : SameDisplacements x x' σ ρ) (T : ℝ → V3 → ℝ)
    (hT : ∀ u v v', V3.norm v = V3.norm v' → T u v = T u v') (i j : ℕ) :
    Geo.Fits (geom x) (geom x') ρ fun v => T (pairWidth w x.atoms[i]? x.atoms[j]? v) v := by
  have hmem : ∀ (i : ℕ), ∀ c ∈ x.atoms[i]?, ∃ c' ∈ x'.atoms, (∀ v, along c v = along c' v) ∧ ∀ p q, along c (V3.sub (ρ p) (ρ q)) = along c (V3.sub p q) := by
    intro i c hc
    obtain ⟨hi, rfl⟩ := List.getElem?_eq_some_iff.1 hc
    obtain ⟨k, hk, hki⟩ := h.onto hok hi
    obtain ⟨a, a1, a2, a3, a4⟩ := hd k _ (List.getElem?_eq_getElem hk)
    subst hki
    rw [List.getElem?_eq_getElem hi] at a1
    obtain rfl := Option.some.inj a1
    refine ⟨_, List.getElem_mem hk, along_same a2.symm a3.symm, fun p q => ?_⟩
    exact (along_same a2.symm a3.symm _).trans (a4 p q)
  refine ⟨keeps_width w hok hx T hT _ _ (fun c hc => ⟨c, List.mem_of_getElem? hc, fun _ => rfl⟩) fun c hc => ⟨c, List.mem_of_getElem? hc, fun _ => rfl⟩,
    keeps_width w hok' hx' T hT _ _ (fun c hc => ?_) fun c hc => ?_, fun p q => ?_⟩
  · obtain ⟨c', c1, c2, -⟩ := hmem i c hc
    exact ⟨c', c1, c2⟩
  · obtain ⟨c', c1, c2, -⟩ := hmem j c hc
    exact ⟨c', c1, c2⟩
  · have hn : V3.norm (V3.sub (ρ p) (ρ q)) = V3.norm (V3.sub p q) := h.geo.iso p q
    have e : pairWidth w x.atoms[i]? x.atoms[j]? (V3.sub (ρ p) (ρ q)) = pairWidth w x.atoms[i]? x.atoms[j]? (V3.sub p q) := by
      cases ha : x.atoms[i]? with
      | none => cases x.atoms[j]? <;> rfl
      | some a =>
        cases hb : x.atoms[j]? with
        | none => rfl
        | some b =>
          obtain ⟨-, -, -, e1⟩ := hmem i a ha
          obtain ⟨-, -, -, e2⟩ := hmem j b hb
          show fwhm w (V3.norm (V3.sub (ρ p) (ρ q))) (along a _ + along b _) = fwhm w (V3.norm (V3.sub p q)) (along a _ + along b _)
          rw [e1, e2, hn]
    show T (pairWidth w _ _ (V3.sub (ρ p) (ρ q))) (V3.sub (ρ p) (ρ q)) = T (pairWidth w _ _ (V3.sub p q)) (V3.sub p q)
    rw [e]
    exact hT _ _ _ hn

variable {C S : Type}

/-- The peaks drawn at the grid point `n` of two descriptions. -/
theorem drawn_same {s : Sorter} {conf : C → LCfg} {stru : S → RStru} {k : Cls C S} (hk : IsLibraryCalculator s conf stru k) (hu : Usual conf stru k)
    (c : C) (y y' : S) (h : SameStructure (stru y) (stru y') σ ρ) (hN : Cells (stru y) (stru y') σ N)
    (hd : SameDisplacements (stru y) (stru y') σ ρ) (hm : SameMask (conf c).mask (stru y) (stru y') σ) (n : ℤ) :
    struRDF (conf c).pcfg (stru y') (counted (conf c).pcfg ((conf c).tails (stru y')) (drawnTerm (conf c).ppf (conf c).p.rstep n)) =
      struRDF (conf c).pcfg (stru y) (counted (conf c).pcfg ((conf c).tails (stru y)) (drawnTerm (conf c).ppf (conf c).p.rstep n)) := by
  have hok := hu.geo y
  have hok' := hu.geo y'
  have hr := library_regular hk hu
  have hdr : 0 < (conf c).p.rstep := lt_trans (by norm_num) (hu.step c)
  rw [tails_same (conf c) h hok hd]
  set t := (conf c).tails (stru y) with ht
  have bound : ∀ z : S, (conf c).tails (stru z) = t → ∀ i < (stru z).atoms.length, ∀ j < (stru z).atoms.length, ∀ v, (geom (stru z)).IsVec i j v →
      counted (conf c).pcfg t (drawnTerm (conf c).ppf (conf c).p.rstep n) ((conf c).pcfg.W (stru z) i j v) v ≠ 0 →
      InRange 0 (((n : ℝ) + 1) * (conf c).p.rstep + t) (V3.norm v) := by
    intro z hz i hi j hj v hv hne
    unfold counted at hne
    split at hne
    · unfold drawnTerm at hne
      split at hne
      · rename_i hin
        obtain ⟨h1, h2, -⟩ := hin
        refine ⟨Real.sqrt_nonneg _, ?_, h1⟩
        obtain ⟨-, t1, -⟩ := hr.tails c z i j hi hj v hv h1
        have hw : 0 < (conf c).pcfg.W (stru z) i j v := hu.wide c z i j hi hj v hv h1
        rw [hk.tails, hz] at t1
        have t1 : -t ≤ (conf c).ppf.prof.lo ((conf c).pcfg.W (stru z) i j v) := t1
        rw [(prof_bounds _ (hu.ppf c) _ hw).1] at t1
        have h3 : (V3.norm v - extent (conf c).ppf ((conf c).pcfg.W (stru z) i j v)) / (conf c).p.rstep < (n : ℝ) + 1 := by
          have := Int.lt_floor_add_one ((V3.norm v - extent (conf c).ppf ((conf c).pcfg.W (stru z) i j v)) / (conf c).p.rstep)
          have h2' : ((⌊(V3.norm v - extent (conf c).ppf ((conf c).pcfg.W (stru z) i j v)) / (conf c).p.rstep⌋ : ℤ) : ℝ) ≤ n := by exact_mod_cast h2
          linarith
        rw [div_lt_iff₀ hdr] at h3
        linarith
      · exact absurd rfl hne
    · exact absurd rfl hne
  refine struRDF_same (conf c).pcfg h hN hok hok' hm (fun i hi k hk v => width_same (conf c).pwm hd i k hi hk v) _ (fun i _ j _ => ?_)
    (((n : ℝ) + 1) * (conf c).p.rstep + t) (bound y rfl) (bound y' (tails_same (conf c) h hok hd))
  refine fits_width (conf c).pwm h hok hok' (hu.disp y) (hu.disp y') hd (counted (conf c).pcfg t (drawnTerm (conf c).ppf (conf c).p.rstep n)) (fun u v v' hv => ?_) i j
  unfold counted drawnTerm
  rw [hv]

/-- **C97** for the RDF. Two calculators, each after any history, with equal configurations, evaluate two descriptions of the same atoms: their
RDFs agree at the grid points looked at in C90. -/
theorem rdf_redescribed_partial (s : Sorter) (hs : SortSpec s) (conf : C → LCfg) (stru : S → RStru) (k : Cls C S) (hk : IsLibraryCalculator s conf stru k)
    (hu : Usual conf stru k) (c c' : C) (e e' : S) (ops ops' : List (POp C S)) (ha : Called conf k (pcInit k c e 0 1) ops)
    (ha' : Called conf k (pcInit k c' e' 0 1) ops')
    (ht : taintAfter k.control (pcInit k c e 0 1).h false (ops.map POp.op) = false)
    (ht' : taintAfter k.control (pcInit k c' e' 0 1).h false (ops'.map POp.op) = false) (y y' : S) :
    let r := pcEval k (pcRun k (pcInit k c e 0 1) ops) y
    let r' := pcEval k (pcRun k (pcInit k c' e' 0 1) ops') y'
    let cf := conf r.h.cfg
    conf r'.h.cfg = cf → SameStructure (stru y) (stru y') σ ρ → Cells (stru y) (stru y') σ N → SameDisplacements (stru y) (stru y') σ ρ →
    SameMask cf.mask (stru y) (stru y') σ →
    ∃ z z', getRDF k r = some z ∧ getRDF k r' = some z' ∧ z.length = z'.length ∧
      ∀ (m : ℕ) (n : ℤ), (rgrid cf.p.rmin cf.p.rmax cf.p.rstep)[m]? = some ((n : ℝ) * cf.p.rstep) →
        (cf.p.rmin - cf.p.ripples ≤ 0 ∨ cf.p.rmin - cf.p.ripples + cf.p.rstep ≤ (n : ℝ) * cf.p.rstep) →
        ((∃ g, cf.ppf = .cropped g) ∨ ((n : ℝ) + 1) * cf.p.rstep ≤ cf.p.rmax + cf.p.ripples) → z'[m]? = z[m]? := by
  intro r r' cf hcf h hN hd hm
  obtain ⟨z, z1, z2, z3⟩ := library_rdf_partial s hs conf stru k hk hu c e ops ha ht y
  obtain ⟨z', z1', z2', z3'⟩ := library_rdf_partial s hs conf stru k hk hu c' e' ops' ha' ht' y'
  have hcf : conf (pcEval k (pcRun k (pcInit k c' e' 0 1) ops') y').h.cfg = conf (pcEval k (pcRun k (pcInit k c e 0 1) ops) y).h.cfg := hcf
  rw [hcf] at z2' z3'
  refine ⟨z, z', z1, z1', z2.trans z2'.symm, fun m n hm' hlo hup => ?_⟩
  rw [z3 m n hm' hlo hup, z3' m n hm' hlo hup]
  exact congrArg some (drawn_same hk hu _ y y' h hN hd hm n)

theorem base_same (cf : LCfg) (h : SameStructure x x' σ ρ) (hN : Cells x x' σ N) (hm : SameMask cf.mask x x' σ)
    (hden : numberDensity x' = numberDensity x) (b : Baseline) : baseOf cf.pcfg x' b = baseOf cf.pcfg x b := by
  funext r
  cases b with
  | linear q =>
    unfold baseOf
    dsimp only
    rw [hden, activeFraction_same h hN (fun i j => cf.pcfg.mask i j x.atoms[i]? x.atoms[j]?) (fun i j => cf.pcfg.mask i j x'.atoms[i]? x'.atoms[j]?) hm]
  | other f => rfl

/-- What `Output` says determines F(Q) and G(r). -/
theorem output_unique {cf : PCfg} {qmin qmax : ℝ} {g : ℤ → ℝ} {G G' : (ℝ → ℝ) → Option (List ℝ)} {F F' : Option (List ℝ)} {z : Prop} (hz : z)
    (h : Output cf qmin qmax g z G F) (h' : Output cf qmin qmax g z G' F') :
    F' = F ∧ (qmax < Real.pi / cf.par.dr - 1 / 2 ^ 26 ∨ Real.pi / cf.par.dr ≤ qmax → G' = G) := by
  constructor
  · obtain ⟨l, rfl, l1, l2⟩ := h.f
    obtain ⟨l', rfl, l1', l2'⟩ := h'.f
    congr 1
    refine List.ext_getElem? fun i => ?_
    by_cases hi : i < l.length
    · rw [l2 i hi, l2' i ((l1' i).2 ((l1 i).1 hi))]
    · rw [List.getElem?_eq_none (not_lt.1 hi), List.getElem?_eq_none]
      exact not_lt.1 fun hn => hi ((l1 i).2 ((l1' i).1 hn))
  · intro hq
    funext env
    obtain ⟨l, e1, l1, l2⟩ := h.pdf hq env
    obtain ⟨l', e1', l1', l2'⟩ := h'.pdf hq env
    rw [e1, e1']
    congr 1
    refine List.ext_getElem? fun m => ?_
    by_cases hi : m < (rgrid cf.par.rmin cf.par.rmax cf.par.dr).length
    · have hg : ∃ n : ℤ, (rgrid cf.par.rmin cf.par.rmax cf.par.dr)[m]? = some ((n : ℝ) * cf.par.dr) := by
        have hmem : (rgrid cf.par.rmin cf.par.rmax cf.par.dr)[m] ∈ rgrid cf.par.rmin cf.par.rmax cf.par.dr := List.getElem_mem hi
        unfold rgrid at hmem
        obtain ⟨n, -, hn⟩ := List.mem_map.1 hmem
        refine ⟨n, ?_⟩
        rw [List.getElem?_eq_getElem hi, hn]
        rfl
      obtain ⟨n, hn⟩ := hg
      rw [l2 m n hn fun _ => hz, l2' m n hn fun _ => hz]
    · rw [List.getElem?_eq_none (by omega), List.getElem?_eq_none (by omega)]

/-- **C97** for G(r) and F(Q) with the cropped profile: two calculators, each after any history, with equal configurations and baselines, give the same
functions for two descriptions of the same atoms with the same number density. -/
theorem pdf_redescribed_partial (s : Sorter) (hs : SortSpec s) (conf : C → LCfg) (stru : S → RStru) (k : Cls C S) (hk : IsLibraryCalculator s conf stru k)
    (hu : Usual conf stru k) (m : C → S → Mask.State) (hm : Masked (fun c => (conf c).pcfg) stru k m) (c c' : C) (e e' : S)
    (b b' : Baseline) (ops ops' : List (OOp C S)) (ha : Called conf k (pcInit k c e 0 1) (calls ops)) (ha' : Called conf k (pcInit k c' e' 0 1) (calls ops'))
    (ht : taintAfter k.control (pcInit k c e 0 1).h false ((calls ops).map POp.op) = false)
    (ht' : taintAfter k.control (pcInit k c' e' 0 1).h false ((calls ops').map POp.op) = false) (y y' : S) (hpos : 0 < atoms (sitesOf (stru y)))
    (qmin qmax : ℝ) (hq : Fft.QOk qmin qmax) :
    let density := fun x => densityOf (geom (stru x)).mult (stru x)
    let r := ocEval k density (ocRun k density (ocInit k density c e b 0 1) ops) y
    let r' := ocEval k density (ocRun k density (ocInit k density c' e' b' 0 1) ops') y'
    let cf := conf r.pc.h.cfg
    conf r'.pc.h.cfg = cf → baseOf cf.pcfg (stru y) (lastBase b' ops') = baseOf cf.pcfg (stru y) (lastBase b ops) →
    baseOf cf.pcfg (stru y) (lastBase b ops) 0 = 0 →
    SameStructure (stru y) (stru y') σ ρ → Cells (stru y) (stru y') σ N → SameDisplacements (stru y) (stru y') σ ρ →
    SameMask cf.mask (stru y) (stru y') σ → numberDensity (stru y') = numberDensity (stru y) →
    rgrid cf.p.rmin cf.p.rmax cf.p.rstep ≠ [] → 1 / 2 ^ 26 < qStep (cf.pcfg.given (cf.tails (stru y))) → cf.p.rmin ≤ cf.p.ripples → (∃ g, cf.ppf = .cropped g) →
    getF k r' qmax = getF k r qmax ∧
      (qmax < Real.pi / cf.p.rstep - 1 / 2 ^ 26 ∨ Real.pi / cf.p.rstep ≤ qmax → getPDF k r' qmin qmax = getPDF k r qmin qmax) := by
  intro density r r' cf hcf hb hb0 h hN hd hmk hden hne hres hlo hcr
  have hpos' : 0 < atoms (sitesOf (stru y')) := by rw [atoms_same h hN]; exact mul_pos hN.1 hpos
  have h1 := library_pdf_partial s hs conf stru k hk hu m hm c e b ops ha ht y hpos qmin qmax hq hne hres hlo hcr
  have ht2 := tails_same cf h (hu.geo y) hd
  have h2 := library_pdf_partial s hs conf stru k hk hu m hm c' e' b' ops' ha' ht' y' hpos' qmin qmax hq
  have hcf : conf (ocEval k density (ocRun k density (ocInit k density c' e' b' 0 1) ops') y').pc.h.cfg = cf := hcf
  dsimp only at h2
  rw [hcf, ht2, base_same cf h hN hmk hden, hb] at h2
  have h2 := h2 hne hres hlo hcr
  have hc : Cropped (cf.pcfg).prof := by
    obtain ⟨g, hg⟩ := hcr
    show Cropped cf.ppf.prof
    have h := hu.ppf r.pc.h.cfg
    rw [show (conf r.pc.h.cfg).ppf = .cropped g from hg] at h
    rw [hg]
    exact cropped_prof g h
  refine output_unique hb0 h1 (output_congr (fun n _ _ => ?_) h2)
  -- the peaks as a whole are the peaks as drawn
  have whole : ∀ z : S, struRDF cf.pcfg (stru z) (counted cf.pcfg (cf.tails (stru z)) (peakTerm cf.ppf ((n : ℝ) * cf.p.rstep))) =
      struRDF cf.pcfg (stru z) (counted cf.pcfg (cf.tails (stru z)) (drawnTerm cf.ppf cf.p.rstep n)) := by
    intro z
    have e1 := peak_sum hk hu r.pc.h.cfg z (cf.tails (stru z)) ((n : ℝ) * cf.p.rstep)
    have e2 := drawn_sum hk hu r.pc.h.cfg z (cf.tails (stru z)) n
    have e3 := struRDF_cropped (library_regular hk hu) r.pc.h.cfg z hc n
    rw [hk.tails] at e3
    exact e1.symm.trans (e3.symm.trans e2)
  have w := whole y'
  rw [ht2] at w
  have d := drawn_same hk hu r.pc.h.cfg y y' h hN hd hmk n
  have d : struRDF cf.pcfg (stru y') (counted cf.pcfg (cf.tails (stru y')) (drawnTerm cf.ppf cf.p.rstep n)) =
    struRDF cf.pcfg (stru y) (counted cf.pcfg (cf.tails (stru y)) (drawnTerm cf.ppf cf.p.rstep n)) := d
  rw [ht2] at d
  rw [w, d, whole y]

end Verif.PDFHist
