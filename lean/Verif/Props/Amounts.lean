import Verif.Props.SamePDF
import Verif.Props.PartsMore
/-! C99: only the total occupancy of every sort of atom matters. -/
set_option linter.unusedSectionVars false
namespace Verif.PDFHist
open Verif.Eval Verif.Diff Verif.KindDiff Verif.History Verif.PDFGrid Verif.PDFCache Verif.R3 Verif.Lattice Verif.Geo
open scoped BigOperators

/-! ### Specification -/

/-- The atom without its occupancy: its type, position and displacements. -/
def bare (a : Atom) : Atom := { a with occupancy := 0 }

/-- The total occupancy of the atoms like `s`: those with its type, position and displacements. -/
def amount (x : RStru) (s : Atom) : ℚ := ((x.atoms.filter fun a => bare a = bare s).map Atom.occupancy).sum

/-- Both structures have the same cell and symmetry, and of every sort of atom the same amount: atoms may be listed in another order, an atom
may be replaced by fractional ones at its position, and there may be atoms without occupancy. -/
def SameAmounts (x x' : RStru) : Prop := x'.kind = x.kind ∧ ∀ s, amount x' s = amount x s

/-- The mask goes by the types of the atoms. -/
def TypeMask (m : ℕ → ℕ → Option Atom → Option Atom → Bool) : Prop :=
  ∃ μ : String → String → Bool, ∀ i j a b, m i j (some a) (some b) = μ a.atomtype b.atomtype

/-! ### Sums weighted by the occupancy -/

theorem sum_range_get (l : List Atom) (f : Atom → ℝ) : ∑ i ∈ Finset.range l.length, (l[i]?.map f).getD 0 = (l.map f).sum := by
  induction l with
  | nil => rfl
  | cons a l ih =>
    rw [List.length_cons, Finset.sum_range_succ', List.map_cons, List.sum_cons, ← ih, add_comm]
    simp

theorem sum_sorts (l : List Atom) (f : Atom → ℝ) (hf : ∀ a, f a = f (bare a)) (P : Finset Atom) (hP : ∀ a ∈ l, bare a ∈ P) :
    (l.map fun a => (a.occupancy : ℝ) * f a).sum =
      ∑ s ∈ P, ((((l.filter fun a => bare a = s).map Atom.occupancy).sum : ℚ) : ℝ) * f s := by
  induction l with
  | nil => simp
  | cons a l ih =>
    rw [List.map_cons, List.sum_cons, ih fun b hb => hP b (List.mem_cons_of_mem _ hb)]
    have e : ∀ s ∈ P, ((((((a :: l).filter fun a => bare a = s).map Atom.occupancy).sum : ℚ) : ℝ) * f s) =
        (if bare a = s then (a.occupancy : ℝ) * f s else 0) + ((((l.filter fun a => bare a = s).map Atom.occupancy).sum : ℚ) : ℝ) * f s := by
      intro s _
      by_cases h : bare a = s
      · rw [List.filter_cons_of_pos (by simpa using h), if_pos h, List.map_cons, List.sum_cons]
        push_cast
        ring
      · rw [List.filter_cons_of_neg (by simpa using h), if_neg h, zero_add]
    rw [Finset.sum_congr rfl e, Finset.sum_add_distrib, Finset.sum_ite_eq, if_pos (hP a List.mem_cons_self), ← hf]

theorem bare_bare (a : Atom) : bare (bare a) = bare a := rfl

variable {x x' : RStru}

/-- The sum of a quantity that goes by the sort of the atoms, weighted by their occupancies, is the same. -/
theorem sum_amounts (h : SameAmounts x x') (f : Atom → ℝ) (hf : ∀ a, f a = f (bare a)) :
    ∑ i ∈ Finset.range x'.atoms.length, (x'.atoms[i]?.map fun a => (a.occupancy : ℝ) * f a).getD 0 =
      ∑ i ∈ Finset.range x.atoms.length, (x.atoms[i]?.map fun a => (a.occupancy : ℝ) * f a).getD 0 := by
  rw [sum_range_get, sum_range_get]
  let P : Finset Atom := ((x.atoms ++ x'.atoms).map bare).toFinset
  rw [sum_sorts x'.atoms f hf P, sum_sorts x.atoms f hf P]
  · refine Finset.sum_congr rfl fun s hs => ?_
    obtain ⟨a, -, rfl⟩ := List.mem_map.1 (List.mem_toFinset.1 hs)
    have := h.2 a
    unfold amount at this
    rw [this]
  · intro a ha
    exact List.mem_toFinset.2 (List.mem_map_of_mem (List.mem_append_left _ ha))
  · intro a ha
    exact List.mem_toFinset.2 (List.mem_map_of_mem (List.mem_append_right _ ha))

/-! ### The geometry of two atoms -/

/-- The multiplicity of a site goes by its atom. -/
theorem mult_atom (y : RStru) (i : ℕ) (a : Atom) (h : y.atoms[i]? = some a) : (geom y).mult i = (geom ⟨y.kind, [bare a]⟩).mult 0 := by
  obtain ⟨k, l⟩ := y
  cases k with
  | atomic => rfl
  | periodic L => rfl
  | crystal L o =>
    show (Crystal.equivPos (crysOf l L o) i).length = (Crystal.equivPos (crysOf [bare a] L o) 0).length
    have h : l[i]? = some a := h
    unfold Crystal.equivPos crysOf
    simp only [List.map_map, List.getD_eq_getElem?_getD, List.getElem?_map, h]
    rfl

theorem pos_atom (l : List Atom) (i : ℕ) (a : Atom) (h : l[i]? = some a) : posOf l i = atomPos (bare a) := by
  unfold posOf
  rw [h]
  rfl

theorem equiv_atom (L : Lat) (o : Sym) (l : List Atom) (i : ℕ) (a : Atom) (h : l[i]? = some a) :
    Crystal.equivPos (crysOf l L o) i = (Crystal.symOf L o.2 o.1 (siteOf (bare a))).map Crystal.Site.xyz := by
  unfold Crystal.equivPos crysOf
  simp only [List.map_map, List.getD_eq_getElem?_getD, List.getElem?_map, h]
  rfl

/-- The sum over the vectors between two sites goes by their atoms. -/
theorem sum_atom (y : RStru) (i j : ℕ) (a b : Atom) (ha : y.atoms[i]? = some a) (hb : y.atoms[j]? = some b) (F : V3 → ℝ) :
    (geom y).sum i j F = (geom ⟨y.kind, [bare a, bare b]⟩).sum 0 1 F := by
  obtain ⟨k, l⟩ := y
  have ha : l[i]? = some a := ha
  have hb : l[j]? = some b := hb
  cases k with
  | atomic =>
    show F (V3.sub (posOf l j) (posOf l i)) = F (V3.sub (posOf [bare a, bare b] 1) (posOf [bare a, bare b] 0))
    rw [pos_atom l i a ha, pos_atom l j b hb]
    rfl
  | periodic L =>
    show ∑ᶠ s : ℤ × ℤ × ℤ, F (imageVec L (posOf l) i j s) = ∑ᶠ s : ℤ × ℤ × ℤ, F (imageVec L (posOf [bare a, bare b]) 0 1 s)
    unfold imageVec
    rw [pos_atom l i a ha, pos_atom l j b hb]
    rfl
  | crystal L o =>
    show ((Crystal.equivPos (crysOf l L o) j).map fun q => ∑ᶠ s : ℤ × ℤ × ℤ, F (V3.sub (moved L q s) ((Crystal.equivPos (crysOf l L o) i).headD V3.zero))).sum =
      ((Crystal.equivPos (crysOf [bare a, bare b] L o) 1).map fun q => ∑ᶠ s : ℤ × ℤ × ℤ, F (V3.sub (moved L q s)
        ((Crystal.equivPos (crysOf [bare a, bare b] L o) 0).headD V3.zero))).sum
    rw [equiv_atom L o l i a ha, equiv_atom L o l j b hb, equiv_atom L o [bare a, bare b] 0 (bare a) rfl, equiv_atom L o [bare a, bare b] 1 (bare b) rfl]
    rfl

/-! ### The pair sum -/

theorem atoms_eq (y : RStru) : atoms (sitesOf y) = ∑ i ∈ Finset.range y.atoms.length,
    (y.atoms[i]?.map fun a => (a.occupancy : ℝ) * ((geom ⟨y.kind, [bare a]⟩).mult 0 : ℝ)).getD 0 := by
  unfold atoms
  rw [sum_sites]
  refine Finset.sum_congr rfl fun i hi => ?_
  rw [List.getElem?_eq_getElem (Finset.mem_range.1 hi)]
  simp only [Option.map_some, Option.getD_some]
  rw [mult_atom y i _ (List.getElem?_eq_getElem (Finset.mem_range.1 hi))]

theorem atoms_amounts (h : SameAmounts x x') : atoms (sitesOf x') = atoms (sitesOf x) := by
  rw [atoms_eq, atoms_eq, h.1]
  exact sum_amounts h (fun a => ((geom ⟨x.kind, [bare a]⟩).mult 0 : ℝ)) fun _ => rfl

theorem fAverage_amounts (h : SameAmounts x x') (lookup : String → ℝ) : fAverage lookup (sitesOf x') = fAverage lookup (sitesOf x) := by
  have e : ∀ y : RStru, y.kind = x.kind → fAverage lookup (sitesOf y) = (∑ i ∈ Finset.range y.atoms.length,
      (y.atoms[i]?.map fun a => (a.occupancy : ℝ) * (lookup a.atomtype * ((geom ⟨x.kind, [bare a]⟩).mult 0 : ℝ))).getD 0) / atoms (sitesOf y) := by
    intro y hy
    unfold fAverage
    rw [sum_sites]
    congr 1
    refine Finset.sum_congr rfl fun i hi => ?_
    rw [List.getElem?_eq_getElem (Finset.mem_range.1 hi)]
    simp only [Option.map_some, Option.getD_some]
    rw [mult_atom y i _ (List.getElem?_eq_getElem (Finset.mem_range.1 hi)), hy]
    ring
  rw [e x rfl, e x' h.1, atoms_amounts h]
  congr 1
  exact sum_amounts h (fun a => lookup a.atomtype * ((geom ⟨x.kind, [bare a]⟩).mult 0 : ℝ)) fun _ => rfl

/-- Double sums over the pairs of atoms that go by the sorts of both. -/
theorem pair_amounts (h : SameAmounts x x') (f : Atom → Atom → ℝ) (h1 : ∀ a b, f a b = f (bare a) b) (h2 : ∀ a b, f a b = f a (bare b))
    (G : RStru → ℕ → ℕ → ℝ) (hG : ∀ y ∈ [x, x'], ∀ (i j : ℕ) a b, y.atoms[i]? = some a → y.atoms[j]? = some b →
      G y i j = (a.occupancy : ℝ) * ((b.occupancy : ℝ) * f a b)) :
    ∑ i ∈ Finset.range x'.atoms.length, ∑ j ∈ Finset.range x'.atoms.length, G x' i j =
      ∑ i ∈ Finset.range x.atoms.length, ∑ j ∈ Finset.range x.atoms.length, G x i j := by
  have e : ∀ y ∈ [x, x'], ∑ i ∈ Finset.range y.atoms.length, ∑ j ∈ Finset.range y.atoms.length, G y i j =
      ∑ i ∈ Finset.range y.atoms.length, (y.atoms[i]?.map fun a => (a.occupancy : ℝ) *
        ∑ j ∈ Finset.range y.atoms.length, (y.atoms[j]?.map fun b => (b.occupancy : ℝ) * f a b).getD 0).getD 0 := by
    intro y hy
    refine Finset.sum_congr rfl fun i hi => ?_
    have hi' := List.getElem?_eq_getElem (Finset.mem_range.1 hi)
    rw [hi', Option.map_some, Option.getD_some, Finset.mul_sum]
    refine Finset.sum_congr rfl fun j hj => ?_
    have hj' := List.getElem?_eq_getElem (Finset.mem_range.1 hj)
    rw [hj', Option.map_some, Option.getD_some]
    exact hG y hy i j _ _ hi' hj'
  rw [e x (by simp), e x' (by simp), ← sum_amounts h (fun a => ∑ j ∈ Finset.range x.atoms.length, (x.atoms[j]?.map fun b => (b.occupancy : ℝ) * f a b).getD 0)
    fun a => ?_]
  · refine Finset.sum_congr rfl fun i _ => ?_
    cases x'.atoms[i]? with
    | none => rfl
    | some a =>
      simp only [Option.map_some, Option.getD_some]
      rw [sum_amounts h (f a) (h2 a)]
  · refine Finset.sum_congr rfl fun j _ => ?_
    cases x.atoms[j]? with
    | none => rfl
    | some b =>
      simp only [Option.map_some, Option.getD_some]
      rw [h1]

/-- The width of a peak goes by the sorts of the atoms. -/
theorem width_bare (w : PWM) (a b : Atom) (v : V3) : pairWidth w (some a) (some b) v = pairWidth w (some (bare a)) (some (bare b)) v := rfl

/-- The RDF of any terms is the same. -/
theorem struRDF_amounts (cf : LCfg) (h : SameAmounts x x') (hm : TypeMask cf.mask) (T : ℝ → V3 → ℝ) :
    struRDF cf.pcfg x' T = struRDF cf.pcfg x T := by
  obtain ⟨μ, hμ⟩ := hm
  unfold struRDF
  rw [atoms_amounts h, fAverage_amounts h]
  congr 1
  refine pair_amounts h (fun a b => if μ a.atomtype b.atomtype = true then ((geom ⟨x.kind, [bare a]⟩).mult 0 : ℝ) *
    (cf.lookup a.atomtype * cf.lookup b.atomtype * (geom ⟨x.kind, [bare a, bare b]⟩).sum 0 1 fun v => T (pairWidth cf.pwm (some a) (some b) v) v) else 0)
    (fun _ _ => rfl) (fun _ _ => rfl) (fun y i j => if cf.pcfg.mask i j y.atoms[i]? y.atoms[j]? = true then ((geom y).mult i : ℝ) *
      (atomFactor cf.pcfg y.atoms[i]? * atomFactor cf.pcfg y.atoms[j]? * (geom y).sum i j fun v => T (cf.pcfg.W y i j v) v) else 0) fun y hy i j a b ha hb => ?_
  have hk : y.kind = x.kind := by
    rcases List.mem_cons.1 hy with rfl | hy
    · rfl
    · rw [List.mem_singleton.1 hy]; exact h.1
  have hw : ∀ v, cf.pcfg.W y i j v = pairWidth cf.pwm (some a) (some b) v := by
    intro v
    show pairWidth cf.pwm y.atoms[i]? y.atoms[j]? v = _
    rw [ha, hb]
  simp only [hw]
  rw [mult_atom y i a ha, sum_atom y i j a b ha hb, hk, ha, hb]
  have hm : cf.pcfg.mask i j (some a) (some b) = μ a.atomtype b.atomtype := hμ i j a b
  rw [hm]
  unfold atomFactor
  simp only [Option.map_some, Option.getD_some]
  have hl : cf.pcfg.lookup = cf.lookup := rfl
  rw [hl]
  split
  · ring
  · ring

theorem counted_same (cf : LCfg) {t t' : ℝ} (ht : t' = t ∨ (cf.p.ripples + t ≤ cf.p.maxext ∧ cf.p.ripples + t' ≤ cf.p.maxext)) (T : ℝ → V3 → ℝ) :
    counted cf.pcfg t' T = counted cf.pcfg t T := by
  rcases ht with rfl | ⟨h1, h2⟩
  · rfl
  · have h1 : cf.pcfg.ripples + t ≤ cf.pcfg.par.maxext := h1
    have h2 : cf.pcfg.ripples + t' ≤ cf.pcfg.par.maxext := h2
    funext w v
    unfold counted
    rw [if_pos (Or.inl h1), if_pos (Or.inl h2)]

/-- The largest displacement goes by the tensors of the atoms, with or without occupancy. -/
theorem maxUii_tensors (h1 : ∀ a ∈ x'.atoms, ∃ b ∈ x.atoms, b.u = a.u) (h2 : ∀ a ∈ x.atoms, ∃ b ∈ x'.atoms, b.u = a.u) :
    Peak.maxUii (x'.atoms.map peakSite) = Peak.maxUii (x.atoms.map peakSite) := by
  have le : ∀ l l' : List Atom, (∀ a ∈ l, ∃ b ∈ l', b.u = a.u) → Peak.maxUii (l.map peakSite) ≤ Peak.maxUii (l'.map peakSite) := by
    intro l l' hl
    obtain ⟨-, -, h3⟩ := Peak.maxUii_spec (l.map peakSite)
    obtain ⟨g1, g2, -⟩ := Peak.maxUii_spec (l'.map peakSite)
    rcases h3 with h3 | ⟨s, hs, h3⟩
    · rw [h3]; exact g1
    · obtain ⟨a, ha, rfl⟩ := List.mem_map.1 hs
      obtain ⟨b, hb, e⟩ := hl a ha
      have hs : (peakSite a).U = (peakSite b).U := by
        show (siteOf a).uij = (siteOf b).uij
        unfold siteOf
        rw [e]
      obtain ⟨a1, a2, a3⟩ := g2 _ (List.mem_map_of_mem hb)
      rw [← hs] at a1 a2 a3
      rcases h3 with h3 | h3 | h3 <;> rw [h3] <;> assumption
  exact le_antisymm (le _ _ h1) (le _ _ h2)

/-- Atoms with the same displacements, with or without occupancy, give the same extension of the range for the peak tails. -/
theorem tails_sorts (cf : LCfg) (h1 : ∀ a ∈ x'.atoms, ∃ b ∈ x.atoms, b.u = a.u) (h2 : ∀ a ∈ x.atoms, ∃ b ∈ x'.atoms, b.u = a.u) :
    cf.tails x' = cf.tails x := by
  have hu := maxUii_tensors h1 h2
  unfold LCfg.tails
  congr 1
  unfold PWM.maxWidth
  cases cf.pwm with
  | constant c => rfl
  | debyeWaller => dsimp only; unfold Peak.dwMaxWidth; rw [hu]
  | jeong j => dsimp only; unfold Peak.Jeong.maxWidth Peak.dwMaxWidth; rw [hu]

theorem activeFraction_amounts (h : SameAmounts x x') (m : ℕ → ℕ → Option Atom → Option Atom → Bool) (hm : TypeMask m) :
    activeFraction (fun i j => m i j x'.atoms[i]? x'.atoms[j]?) (sitesOf x') = activeFraction (fun i j => m i j x.atoms[i]? x.atoms[j]?) (sitesOf x) := by
  obtain ⟨μ, hμ⟩ := hm
  have len : ∀ y : RStru, (sitesOf y).length = y.atoms.length := fun y => by unfold sitesOf; simp
  unfold activeFraction
  rw [atoms_amounts h, len, len]
  congr 1
  have e : ∀ y : RStru, ∑ i ∈ Finset.range y.atoms.length, wt (sitesOf y) i * ∑ j ∈ Finset.range y.atoms.length,
      (if m i j y.atoms[i]? y.atoms[j]? = true then wt (sitesOf y) j else 0) =
      ∑ i ∈ Finset.range y.atoms.length, ∑ j ∈ Finset.range y.atoms.length,
        (if m i j y.atoms[i]? y.atoms[j]? = true then wt (sitesOf y) i * wt (sitesOf y) j else 0) := by
    intro y
    refine Finset.sum_congr rfl fun i _ => ?_
    rw [Finset.mul_sum]
    refine Finset.sum_congr rfl fun j _ => ?_
    rw [mul_ite, mul_zero]
  try rw [e, e]
  refine pair_amounts h (fun a b => if μ a.atomtype b.atomtype = true then ((geom ⟨x.kind, [bare a]⟩).mult 0 : ℝ) * ((geom ⟨x.kind, [bare b]⟩).mult 0 : ℝ) else 0)
    (fun _ _ => rfl) (fun _ _ => rfl) (fun y i j => if m i j y.atoms[i]? y.atoms[j]? = true then wt (sitesOf y) i * wt (sitesOf y) j else 0)
    fun y hy i j a b ha hb => ?_
  have hk : y.kind = x.kind := by
    rcases List.mem_cons.1 hy with rfl | hy
    · rfl
    · rw [List.mem_singleton.1 hy]; exact h.1
  rw [wt_eq, wt_eq, mult_atom y i a ha, mult_atom y j b hb, ha, hb, hμ i j a b, hk]
  simp only [Option.map_some, Option.getD_some]
  split
  · ring
  · ring

theorem density_amounts (h : SameAmounts x x') : numberDensity x' = numberDensity x := by
  unfold numberDensity
  rw [h.1, atoms_amounts h]

theorem base_amounts (cf : LCfg) (h : SameAmounts x x') (hm : TypeMask cf.mask) (b : Baseline) : baseOf cf.pcfg x' b = baseOf cf.pcfg x b := by
  funext r
  cases b with
  | linear q =>
    unfold baseOf
    dsimp only
    rw [density_amounts h]
    have := activeFraction_amounts h cf.pcfg.mask hm
    rw [this]
  | other f => rfl

/-! ### Calculators -/

variable {C S : Type}

/-- **C99** for the RDF. Two calculators, each after any history, with equal configurations and a mask by types, evaluate two structures with the same
amounts of every sort of atom: their RDFs agree at the grid points looked at in C90.  The displacements of atoms without occupancy can only matter
by the extension of the range. -/
theorem rdf_amounts_partial (s : Sorter) (hs : SortSpec s) (conf : C → LCfg) (stru : S → RStru) (k : Cls C S) (hk : IsLibraryCalculator s conf stru k)
    (hu : Usual conf stru k) (c c' : C) (e e' : S) (ops ops' : List (POp C S)) (ha : Called conf k (pcInit k c e 0 1) ops)
    (ha' : Called conf k (pcInit k c' e' 0 1) ops')
    (ht : taintAfter k.control (pcInit k c e 0 1).h false (ops.map POp.op) = false)
    (ht' : taintAfter k.control (pcInit k c' e' 0 1).h false (ops'.map POp.op) = false) (y y' : S) :
    let r := pcEval k (pcRun k (pcInit k c e 0 1) ops) y
    let r' := pcEval k (pcRun k (pcInit k c' e' 0 1) ops') y'
    let cf := conf r.h.cfg
    conf r'.h.cfg = cf → SameAmounts (stru y) (stru y') → TypeMask cf.mask →
    (cf.tails (stru y') = cf.tails (stru y) ∨ (cf.p.ripples + cf.tails (stru y) ≤ cf.p.maxext ∧ cf.p.ripples + cf.tails (stru y') ≤ cf.p.maxext)) →
    ∃ z z', getRDF k r = some z ∧ getRDF k r' = some z' ∧ z.length = (rgrid cf.p.rmin cf.p.rmax cf.p.rstep).length ∧ z.length = z'.length ∧
      ∀ (m : ℕ) (n : ℤ), (rgrid cf.p.rmin cf.p.rmax cf.p.rstep)[m]? = some ((n : ℝ) * cf.p.rstep) →
        (cf.p.rmin - cf.p.ripples ≤ 0 ∨ cf.p.rmin - cf.p.ripples + cf.p.rstep ≤ (n : ℝ) * cf.p.rstep) →
        ((∃ g, cf.ppf = .cropped g) ∨ ((n : ℝ) + 1) * cf.p.rstep ≤ cf.p.rmax + cf.p.ripples) → z'[m]? = z[m]? := by
  intro r r' cf hcf h hm htl
  obtain ⟨z, z1, z2, z3⟩ := library_rdf_partial s hs conf stru k hk hu c e ops ha ht y
  obtain ⟨z', z1', z2', z3'⟩ := library_rdf_partial s hs conf stru k hk hu c' e' ops' ha' ht' y'
  have hcf : conf (pcEval k (pcRun k (pcInit k c' e' 0 1) ops') y').h.cfg = conf (pcEval k (pcRun k (pcInit k c e 0 1) ops) y).h.cfg := hcf
  rw [hcf] at z2' z3'
  refine ⟨z, z', z1, z1', z2, z2.trans z2'.symm, fun m n hm' hlo hup => ?_⟩
  rw [z3 m n hm' hlo hup, z3' m n hm' hlo hup, counted_same cf htl, struRDF_amounts cf h hm]

/-- **C99** for G(r) and F(Q) with the cropped profile. -/
theorem pdf_amounts_partial (s : Sorter) (hs : SortSpec s) (conf : C → LCfg) (stru : S → RStru) (k : Cls C S) (hk : IsLibraryCalculator s conf stru k)
    (hu : Usual conf stru k) (m : C → S → Mask.State) (hm : Masked (fun c => (conf c).pcfg) stru k m) (c c' : C) (e e' : S)
    (b b' : Baseline) (ops ops' : List (OOp C S)) (ha : Called conf k (pcInit k c e 0 1) (calls ops)) (ha' : Called conf k (pcInit k c' e' 0 1) (calls ops'))
    (ht : taintAfter k.control (pcInit k c e 0 1).h false ((calls ops).map POp.op) = false)
    (ht' : taintAfter k.control (pcInit k c' e' 0 1).h false ((calls ops').map POp.op) = false) (y y' : S) (hpos : 0 < atoms (sitesOf (stru y)))
    (qmin qmax : ℝ) (hq : Fft.QOk qmin qmax) :
    let density := fun x => densityOf (geom (stru x)).mult (stru x)
    let r := ocEval k density (ocRun k density (ocInit k density c e b 0 1) ops) y
    let r' := ocEval k density (ocRun k density (ocInit k density c' e' b' 0 1) ops') y'
    let cf := conf r.pc.h.cfg
    conf r'.pc.h.cfg = cf → baseOf cf.pcfg (stru y) (lastBase b' ops') = baseOf cf.pcfg (stru y) (lastBase b ops) →
    baseOf cf.pcfg (stru y) (lastBase b ops) 0 = 0 →
    SameAmounts (stru y) (stru y') → TypeMask cf.mask → cf.tails (stru y') = cf.tails (stru y) →
    rgrid cf.p.rmin cf.p.rmax cf.p.rstep ≠ [] → 1 / 2 ^ 26 < qStep (cf.pcfg.given (cf.tails (stru y))) → cf.p.rmin ≤ cf.p.ripples → (∃ g, cf.ppf = .cropped g) →
    getF k r' qmax = getF k r qmax ∧
      (qmax < Real.pi / cf.p.rstep - 1 / 2 ^ 26 ∨ Real.pi / cf.p.rstep ≤ qmax → getPDF k r' qmin qmax = getPDF k r qmin qmax) := by
  intro density r r' cf hcf hb hb0 h hmk ht2 hne hres hlo hcr
  have hpos' : 0 < atoms (sitesOf (stru y')) := by rw [atoms_amounts h]; exact hpos
  have h1 := library_pdf_partial s hs conf stru k hk hu m hm c e b ops ha ht y hpos qmin qmax hq hne hres hlo hcr
  have h2 := library_pdf_partial s hs conf stru k hk hu m hm c' e' b' ops' ha' ht' y' hpos' qmin qmax hq
  have hcf : conf (ocEval k density (ocRun k density (ocInit k density c' e' b' 0 1) ops') y').pc.h.cfg = cf := hcf
  dsimp only at h2
  rw [hcf, ht2, base_amounts cf h hmk, hb] at h2
  have h2 := h2 hne hres hlo hcr
  exact output_unique hb0 h1 (output_congr (fun n _ _ => by rw [struRDF_amounts cf h hmk]) h2)


/-! ### A concrete case -/

/-- An atom with isotropic displacements. -/
def exIso (t : String) (px occ : ℚ) : Atom := ⟨t, px, 0, 0, occ, false, ⟨1 / 100, 0, 0, 0, 1 / 100, 0, 0, 0, 1 / 100⟩⟩

/-- Two atoms; the same in another order, with one of them in two parts and an atom without occupancy. -/
def exFew : RStru := ⟨.atomic, [exIso "A" 0 1, exIso "B" 2 1]⟩
def exMany : RStru := ⟨.atomic, [exIso "B" 2 (1 / 3), exIso "C" 1 0, exIso "A" 0 1, exIso "B" 2 (2 / 3)]⟩

theorem exAmounts : SameAmounts exFew exMany := by
  refine ⟨rfl, fun s => ?_⟩
  have hA : ∀ o, bare (exIso "A" 0 o) = exIso "A" 0 0 := fun _ => rfl
  have hB : ∀ o, bare (exIso "B" 2 o) = exIso "B" 2 0 := fun _ => rfl
  have hC : ∀ o, bare (exIso "C" 1 o) = exIso "C" 1 0 := fun _ => rfl
  have ho : ∀ t p o, (exIso t p o).occupancy = o := fun _ _ _ => rfl
  unfold amount exFew exMany
  dsimp only
  generalize bare s = t
  simp only [List.filter_cons, List.filter_nil, hA, hB, hC, decide_eq_true_eq]
  by_cases h1 : exIso "A" 0 0 = t
  · subst h1
    rw [if_neg (by decide), if_neg (by decide), if_pos rfl, if_neg (by decide), if_pos rfl, if_neg (by decide)]
  · by_cases h2 : exIso "B" 2 0 = t
    · subst h2
      rw [if_pos rfl, if_neg (by decide), if_neg (by decide), if_pos rfl, if_neg (by decide), if_pos rfl]
      show (1 / 3 : ℚ) + (2 / 3 + 0) = 1 + 0
      norm_num
    · rw [if_neg h2, if_neg h1, if_neg h2, if_neg h1, if_neg h2]
      by_cases h3 : exIso "C" 1 0 = t
      · rw [if_pos h3]
        show (0 : ℚ) + 0 = 0
        norm_num
      · rw [if_neg h3]

theorem exIso_aligned (t : String) (px occ : ℚ) : Peak.Aligned (peakSite (exIso t px occ)) := fun h => absurd h Bool.false_ne_true

theorem exFew_stru : ExStru (· = .atomic) exFew ∧ ExStru (· = .atomic) exMany := by
  have iso : ∀ t p o, (exIso t p o).anisotropy = false ∧ 0 < (exIso t p o).u.u1 := fun _ _ _ => ⟨rfl, by norm_num [exIso]⟩
  refine ⟨⟨rfl, trivial, fun a ha => ?_, fun a ha => ?_⟩, rfl, trivial, fun a ha => ?_, fun a ha => ?_⟩ <;>
    (simp only [exFew, exMany, List.mem_cons, List.not_mem_nil, or_false] at ha)
  · rcases ha with rfl | rfl <;> exact exIso_aligned _ _ _
  · rcases ha with rfl | rfl <;> exact iso _ _ _
  · rcases ha with rfl | rfl | rfl | rfl <;> exact exIso_aligned _ _ _
  · rcases ha with rfl | rfl | rfl | rfl <;> exact iso _ _ _

theorem exU : (∀ a ∈ exMany.atoms, ∃ b ∈ exFew.atoms, b.u = a.u) ∧ ∀ a ∈ exFew.atoms, ∃ b ∈ exMany.atoms, b.u = a.u := by
  have e : ∀ t p o t' p' o', (exIso t p o).u = (exIso t' p' o').u := fun _ _ _ _ _ _ => rfl
  refine ⟨fun a ha => ⟨exIso "A" 0 1, by simp [exFew], ?_⟩, fun a ha => ⟨exIso "A" 0 1, by simp [exMany], ?_⟩⟩ <;>
    (simp only [exFew, exMany, List.mem_cons, List.not_mem_nil, or_false] at ha)
  · rcases ha with rfl | rfl | rfl | rfl <;> exact e _ _ _ _ _ _
  · rcases ha with rfl | rfl <;> exact e _ _ _ _ _ _

/-- New calculators give the same RDF for both. -/
example (s : Sorter) (hs : SortSpec s) :
    ∃ (k : Cls Unit {x : RStru // ExStru (· = .atomic) x}) (z : List ℝ), IsLibraryCalculator s (fun _ => exLib (20, true)) (fun x => x.1) k ∧
      getRDF k (pcEval k (pcInit k () ⟨exFew, exFew_stru.1⟩ 0 1) ⟨exFew, exFew_stru.1⟩) = some z ∧
      getRDF k (pcEval k (pcInit k () ⟨exFew, exFew_stru.1⟩ 0 1) ⟨exMany, exFew_stru.2⟩) = some z := by
  have hcls : ∀ a b : Kind Lat Sym, a = .atomic → b = .atomic → SameClass a b := by rintro _ _ rfl rfl; trivial
  obtain ⟨k, hk, hpm⟩ := library_exists s (fun _ : Unit => exLib (20, true)) (fun x : {x : RStru // ExStru (· = .atomic) x} => x.1) (fun _ => false)
  have hu : Usual (fun _ : Unit => exLib (20, true)) (fun x : {x : RStru // ExStru (· = .atomic) x} => x.1) k :=
    exLib_usual _ hcls (fun _ : Unit => (20, true)) _ (fun x => x.2) k
  obtain ⟨z, z', z1, z2, z0, hlen, z4⟩ := rdf_amounts_partial s hs _ _ k hk hu () () ⟨exFew, exFew_stru.1⟩ ⟨exFew, exFew_stru.1⟩ [] []
    (fun pre f _ r post e => by simp at e) (fun pre f _ r post e => by simp at e) rfl rfl ⟨exFew, exFew_stru.1⟩ ⟨exMany, exFew_stru.2⟩ rfl exAmounts
    ⟨fun _ _ => true, fun _ _ _ _ => rfl⟩ (Or.inl (tails_sorts _ exU.1 exU.2))
  refine ⟨k, z, hk, z1, z2.trans (congrArg some (List.ext_getElem? fun m => ?_))⟩
  by_cases hm : m < z.length
  · have hm' := hm
    rw [z0] at hm'
    change m < (rgrid (exLib (20, true)).p.rmin (exLib (20, true)).p.rmax (exLib (20, true)).p.rstep).length at hm'
    obtain ⟨n, -, hn⟩ := List.mem_map.1 (List.getElem_mem hm')
    refine z4 m n (by rw [List.getElem?_eq_getElem hm']; exact congrArg some hn.symm) (Or.inl ?_) (Or.inl ⟨_, rfl⟩)
    have := ripples_nonneg (exLib (20, true)).p
    have e : (exLib (20, true)).p.rmin = 0 := rfl
    have : (exLib (20, true)).p.rmin - (exLib (20, true)).p.ripples ≤ 0 := by rw [e]; linarith
    exact this
  · rw [List.getElem?_eq_none (by omega), List.getElem?_eq_none (by omega)]
end Verif.PDFHist
