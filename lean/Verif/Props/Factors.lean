import Verif.Props.Amounts
/-! C103: common factors of the occupancies and of the scattering factors; RDF, G(r) and F(Q) of PDFCalculator. -/
set_option linter.unusedSectionVars false
namespace Verif.PDFHist
open Verif.Eval Verif.Diff Verif.KindDiff Verif.History Verif.PDFGrid Verif.PDFCache Verif.R3 Verif.Lattice Verif.Geo
open scoped BigOperators

/-! ### Specification -/

/-- Both structures have the same cell and symmetry, and of every sort of atom the second has `q` times the amount of the first: all occupancies
multiplied by `q`, say. -/
def Diluted (q : ℚ) (x x' : RStru) : Prop := x'.kind = x.kind ∧ ∀ s, amount x' s = q * amount x s

/-- The structure with all occupancies multiplied by `q`. -/
def dilute (q : ℚ) (x : RStru) : RStru := ⟨x.kind, x.atoms.map fun a => { a with occupancy := q * a.occupancy }⟩

/-- The configuration with all scattering factors multiplied by `c`. -/
def LCfg.withFactor (cf : LCfg) (c : ℝ) : LCfg := { cf with lookup := fun t => c * cf.lookup t }

theorem dilute_spec (q : ℚ) (x : RStru) : Diluted q x (dilute q x) := by
  refine ⟨rfl, fun s => ?_⟩
  unfold amount dilute
  dsimp only
  rw [List.filter_map, List.map_map, ← List.sum_map_mul_left]
  rfl

theorem same_diluted {x x' : RStru} : Diluted 1 x x' ↔ SameAmounts x x' := by
  unfold Diluted SameAmounts
  simp only [one_mul]

/-! ### Sums weighted by the occupancy -/

variable {x x' : RStru} {q : ℚ}

theorem sum_diluted (h : Diluted q x x') (f : Atom → ℝ) (hf : ∀ a, f a = f (bare a)) :
    ∑ i ∈ Finset.range x'.atoms.length, (x'.atoms[i]?.map fun a => (a.occupancy : ℝ) * f a).getD 0 =
      q * ∑ i ∈ Finset.range x.atoms.length, (x.atoms[i]?.map fun a => (a.occupancy : ℝ) * f a).getD 0 := by
  rw [sum_range_get, sum_range_get]
  let P : Finset Atom := ((x.atoms ++ x'.atoms).map bare).toFinset
  rw [sum_sorts x'.atoms f hf P, sum_sorts x.atoms f hf P, Finset.mul_sum]
  · refine Finset.sum_congr rfl fun s hs => ?_
    obtain ⟨a, -, rfl⟩ := List.mem_map.1 (List.mem_toFinset.1 hs)
    have := h.2 a
    unfold amount at this
    rw [this]
    push_cast
    ring
  · intro a ha
    exact List.mem_toFinset.2 (List.mem_map_of_mem (List.mem_append_left _ ha))
  · intro a ha
    exact List.mem_toFinset.2 (List.mem_map_of_mem (List.mem_append_right _ ha))

theorem pair_diluted (h : Diluted q x x') (f : Atom → Atom → ℝ) (h1 : ∀ a b, f a b = f (bare a) b) (h2 : ∀ a b, f a b = f a (bare b))
    (G : RStru → ℕ → ℕ → ℝ) (hG : ∀ y ∈ [x, x'], ∀ (i j : ℕ) a b, y.atoms[i]? = some a → y.atoms[j]? = some b →
      G y i j = (a.occupancy : ℝ) * ((b.occupancy : ℝ) * f a b)) :
    ∑ i ∈ Finset.range x'.atoms.length, ∑ j ∈ Finset.range x'.atoms.length, G x' i j =
      (q : ℝ) ^ 2 * ∑ i ∈ Finset.range x.atoms.length, ∑ j ∈ Finset.range x.atoms.length, G x i j := by
  have e : ∀ y ∈ [x, x'], ∑ i ∈ Finset.range y.atoms.length, ∑ j ∈ Finset.range y.atoms.length, G y i j =
      ∑ i ∈ Finset.range y.atoms.length, (y.atoms[i]?.map fun a => (a.occupancy : ℝ) *
        ∑ j ∈ Finset.range y.atoms.length, (y.atoms[j]?.map fun b => (b.occupancy : ℝ) * f a b).getD 0).getD 0 := by
    intro y hy
    refine Finset.sum_congr rfl fun i hi => ?_
    have hi' := List.getElem?_eq_getElem (Finset.mem_range.1 hi)
    rw [hi', Option.map_some, Option.getD_some, Finset.mul_sum]
    refine Finset.sum_congr rfl fun j hj => ?_
    have hj' := List.getElem?_eq_getElem (Finset.mem_range.1 hj)
    rw [hj', Option.map_some, Option.getD_some]
    exact hG y hy i j _ _ hi' hj'
  rw [e x (by simp), e x' (by simp), sq, mul_assoc, ← sum_diluted h (fun a => ∑ j ∈ Finset.range x.atoms.length, (x.atoms[j]?.map fun b => (b.occupancy : ℝ) * f a b).getD 0)
    fun a => ?_, Finset.mul_sum]
  · refine Finset.sum_congr rfl fun i _ => ?_
    cases x'.atoms[i]? with
    | none => simp
    | some a =>
      simp only [Option.map_some, Option.getD_some]
      rw [sum_diluted h (f a) (h2 a)]
      ring
  · refine Finset.sum_congr rfl fun j _ => ?_
    cases x.atoms[j]? with
    | none => rfl
    | some b =>
      simp only [Option.map_some, Option.getD_some]
      rw [h1]

theorem atoms_diluted (h : Diluted q x x') : atoms (sitesOf x') = q * atoms (sitesOf x) := by
  rw [atoms_eq, atoms_eq, h.1]
  exact sum_diluted h (fun a => ((geom ⟨x.kind, [bare a]⟩).mult 0 : ℝ)) fun _ => rfl

theorem fAverage_diluted (h : Diluted q x x') (hq : q ≠ 0) (lookup : String → ℝ) (c : ℝ) :
    fAverage (fun t => c * lookup t) (sitesOf x') = c * fAverage lookup (sitesOf x) := by
  have e : ∀ (c : ℝ) (y : RStru), y.kind = x.kind → fAverage (fun t => c * lookup t) (sitesOf y) = c * (∑ i ∈ Finset.range y.atoms.length,
      (y.atoms[i]?.map fun a => (a.occupancy : ℝ) * (lookup a.atomtype * ((geom ⟨x.kind, [bare a]⟩).mult 0 : ℝ))).getD 0) / atoms (sitesOf y) := by
    intro c y hy
    unfold fAverage
    rw [sum_sites, Finset.mul_sum]
    congr 1
    refine Finset.sum_congr rfl fun i hi => ?_
    rw [List.getElem?_eq_getElem (Finset.mem_range.1 hi)]
    simp only [Option.map_some, Option.getD_some]
    rw [mult_atom y i _ (List.getElem?_eq_getElem (Finset.mem_range.1 hi)), hy]
    ring
  have hq' : (q : ℝ) ≠ 0 := by exact_mod_cast hq
  have e1 := e 1 x rfl
  simp only [one_mul] at e1
  rw [e c x' h.1, e1, atoms_diluted h, sum_diluted h (fun a => lookup a.atomtype * ((geom ⟨x.kind, [bare a]⟩).mult 0 : ℝ)) fun _ => rfl,
    mul_left_comm, mul_div_mul_left _ _ hq', mul_div_assoc]

/-- The RDF of any terms is multiplied by the factor of the amounts; a factor of the scattering factors does not matter. -/
theorem struRDF_factors (cf : LCfg) (h : Diluted q x x') (hq : q ≠ 0) (hm : TypeMask cf.mask) (c : ℝ) (hc : c ≠ 0) (T : ℝ → V3 → ℝ) :
    struRDF (cf.withFactor c).pcfg x' T = q * struRDF cf.pcfg x T := by
  obtain ⟨μ, hμ⟩ := hm
  have hq' : (q : ℝ) ≠ 0 := by exact_mod_cast hq
  have key := pair_diluted h (fun a b => if μ a.atomtype b.atomtype = true then ((geom ⟨x.kind, [bare a]⟩).mult 0 : ℝ) *
    (cf.lookup a.atomtype * cf.lookup b.atomtype * (geom ⟨x.kind, [bare a, bare b]⟩).sum 0 1 fun v => T (pairWidth cf.pwm (some a) (some b) v) v) else 0)
    (fun _ _ => rfl) (fun _ _ => rfl) (fun y i j => if cf.pcfg.mask i j y.atoms[i]? y.atoms[j]? = true then ((geom y).mult i : ℝ) *
      (atomFactor cf.pcfg y.atoms[i]? * atomFactor cf.pcfg y.atoms[j]? * (geom y).sum i j fun v => T (cf.pcfg.W y i j v) v) else 0) fun y hy i j a b ha hb => ?_
  · have hf : ∀ a, atomFactor (cf.withFactor c).pcfg a = c * atomFactor cf.pcfg a := by
      intro a
      cases a with
      | none => exact (mul_zero c).symm
      | some a => exact mul_assoc c (cf.lookup a.atomtype) (a.occupancy : ℝ)
    have e : (∑ i ∈ Finset.range x'.atoms.length, ∑ j ∈ Finset.range x'.atoms.length,
        if (cf.withFactor c).pcfg.mask i j x'.atoms[i]? x'.atoms[j]? = true then ((geom x').mult i : ℝ) *
          (atomFactor (cf.withFactor c).pcfg x'.atoms[i]? * atomFactor (cf.withFactor c).pcfg x'.atoms[j]? *
            (geom x').sum i j fun v => T ((cf.withFactor c).pcfg.W x' i j v) v) else 0) =
        c ^ 2 * ∑ i ∈ Finset.range x'.atoms.length, ∑ j ∈ Finset.range x'.atoms.length,
          if cf.pcfg.mask i j x'.atoms[i]? x'.atoms[j]? = true then ((geom x').mult i : ℝ) *
            (atomFactor cf.pcfg x'.atoms[i]? * atomFactor cf.pcfg x'.atoms[j]? * (geom x').sum i j fun v => T (cf.pcfg.W x' i j v) v) else 0 := by
      rw [Finset.mul_sum]
      refine Finset.sum_congr rfl fun i _ => ?_
      rw [Finset.mul_sum]
      refine Finset.sum_congr rfl fun j _ => ?_
      rw [mul_ite, mul_zero, hf, hf]
      have hw : (cf.withFactor c).pcfg.W x' i j = cf.pcfg.W x' i j := rfl
      have hmk : (cf.withFactor c).pcfg.mask = cf.pcfg.mask := rfl
      rw [hw, hmk]
      split
      · ring
      · rfl
    unfold struRDF
    rw [e, key, atoms_diluted h, show (cf.withFactor c).pcfg.lookup = fun t => c * cf.pcfg.lookup t from rfl, fAverage_diluted h hq]
    have hc2 : c ^ 2 * (q : ℝ) ≠ 0 := mul_ne_zero (pow_ne_zero 2 hc) hq'
    rw [mul_pow, show (q : ℝ) * atoms (sitesOf x) * (c ^ 2 * fAverage cf.pcfg.lookup (sitesOf x) ^ 2) =
      (c ^ 2 * q) * (atoms (sitesOf x) * fAverage cf.pcfg.lookup (sitesOf x) ^ 2) from by ring,
      show ∀ S : ℝ, c ^ 2 * ((q : ℝ) ^ 2 * S) = (c ^ 2 * q) * (q * S) from fun S => by ring, mul_div_mul_left _ _ hc2, mul_div_assoc]
  have hk : y.kind = x.kind := by
    rcases List.mem_cons.1 hy with rfl | hy
    · rfl
    · rw [List.mem_singleton.1 hy]; exact h.1
  have hw : ∀ v, cf.pcfg.W y i j v = pairWidth cf.pwm (some a) (some b) v := by
    intro v
    show pairWidth cf.pwm y.atoms[i]? y.atoms[j]? v = _
    rw [ha, hb]
  simp only [hw]
  rw [mult_atom y i a ha, sum_atom y i j a b ha hb, hk, ha, hb]
  have hm : cf.pcfg.mask i j (some a) (some b) = μ a.atomtype b.atomtype := hμ i j a b
  rw [hm]
  unfold atomFactor
  simp only [Option.map_some, Option.getD_some]
  have hl : cf.pcfg.lookup = cf.lookup := rfl
  rw [hl]
  split
  · ring
  · ring

theorem activeFraction_diluted (h : Diluted q x x') (hq : q ≠ 0) (m : ℕ → ℕ → Option Atom → Option Atom → Bool) (hm : TypeMask m) :
    activeFraction (fun i j => m i j x'.atoms[i]? x'.atoms[j]?) (sitesOf x') = activeFraction (fun i j => m i j x.atoms[i]? x.atoms[j]?) (sitesOf x) := by
  obtain ⟨μ, hμ⟩ := hm
  have hq' : (q : ℝ) ^ 2 ≠ 0 := pow_ne_zero 2 (by exact_mod_cast hq)
  have len : ∀ y : RStru, (sitesOf y).length = y.atoms.length := fun y => by unfold sitesOf; simp
  unfold activeFraction
  rw [atoms_diluted h, len, len, mul_pow, pair_diluted h (fun a b => if μ a.atomtype b.atomtype = true then ((geom ⟨x.kind, [bare a]⟩).mult 0 : ℝ) * ((geom ⟨x.kind, [bare b]⟩).mult 0 : ℝ) else 0)
    (fun _ _ => rfl) (fun _ _ => rfl) (fun y i j => if m i j y.atoms[i]? y.atoms[j]? = true then wt (sitesOf y) i * wt (sitesOf y) j else 0)
    fun y hy i j a b ha hb => ?_, mul_div_mul_left _ _ hq']
  have hk : y.kind = x.kind := by
    rcases List.mem_cons.1 hy with rfl | hy
    · rfl
    · rw [List.mem_singleton.1 hy]; exact h.1
  rw [wt_eq, wt_eq, mult_atom y i a ha, mult_atom y j b hb, ha, hb, hμ i j a b, hk]
  simp only [Option.map_some, Option.getD_some]
  split
  · ring
  · ring

theorem density_diluted (h : Diluted q x x') : numberDensity x' = q * numberDensity x := by
  unfold numberDensity
  rw [h.1, atoms_diluted h]
  cases x.kind with
  | atomic => exact (mul_zero _).symm
  | periodic L => exact mul_div_assoc _ _ _
  | crystal L o => exact mul_div_assoc _ _ _

theorem base_diluted (cf : LCfg) (h : Diluted q x x') (hq : q ≠ 0) (hm : TypeMask cf.mask) (c : ℝ) (b b' : Baseline) (hb : SameKind b b') (r : ℝ) :
    baseOf (cf.withFactor c).pcfg x' b' r = q * baseOf cf.pcfg x b r := by
  rcases hb with ⟨t, t', rfl, rfl⟩ | ⟨rfl, rfl⟩
  · unfold baseOf
    dsimp only
    rw [density_diluted h]
    have := activeFraction_diluted h hq cf.pcfg.mask hm
    rw [show (cf.withFactor c).pcfg.mask = cf.pcfg.mask from rfl, this]
    ring
  · exact (mul_zero _).symm

/-! ### Output -/

theorem transform_factor (cf : PCfg) (g : ℤ → ℝ) (c q : ℝ) : transform cf (fun n => c * g n) q = c * transform cf g q := by
  unfold transform
  rw [mul_left_comm]
  refine congrArg (cf.par.dr * ·) ?_
  rw [Finset.mul_sum]
  refine Finset.sum_congr rfl fun n _ => ?_
  ring

theorem fromWindow_factor (cf : PCfg) (qmin qmax : ℝ) (F : ℝ → ℝ) (c r : ℝ) : fromWindow cf qmin qmax (fun q => c * F q) r = c * fromWindow cf qmin qmax F r := by
  unfold fromWindow
  rw [mul_left_comm]
  refine congrArg (2 / Real.pi * qStep cf * ·) ?_
  rw [Finset.mul_sum]
  refine Finset.sum_congr rfl fun n _ => ?_
  rw [mul_ite, mul_zero]
  split
  · ring
  · rfl

/-- G(r) and F(Q) of `c` times a function. -/
theorem output_factor {cf : PCfg} {qmin qmax : ℝ} {g : ℤ → ℝ} {G G' : (ℝ → ℝ) → Option (List ℝ)} {F F' : Option (List ℝ)} {z : Prop} (hz : z) (c : ℝ)
    (h : Output cf qmin qmax g z G F) (h' : Output cf qmin qmax (fun n => c * g n) z G' F') :
    F' = F.map (List.map (c * ·)) ∧
      (qmax < Real.pi / cf.par.dr - 1 / 2 ^ 26 ∨ Real.pi / cf.par.dr ≤ qmax → ∀ env, G' env = (G env).map (List.map (c * ·))) := by
  have key : Output cf qmin qmax (fun n => c * g n) z (fun env => (G env).map (List.map (c * ·))) (F.map (List.map (c * ·))) := by
    constructor
    · intro hq env
      obtain ⟨l, e, l1, l2⟩ := h.pdf hq env
      refine ⟨l.map (c * ·), by rw [e]; rfl, by rw [List.length_map, l1], fun m n hm h0 => ?_⟩
      rw [List.getElem?_map, l2 m n hm h0, Option.map_some, ← mul_assoc, show transform cf (fun n => c * g n) = fun q => c * transform cf g q from
        funext fun q => transform_factor cf g c q, fromWindow_factor]
    · obtain ⟨l, e, l1, l2⟩ := h.f
      refine ⟨l.map (c * ·), by rw [e]; rfl, fun i => by rw [List.length_map]; exact l1 i, fun i hi => ?_⟩
      rw [List.length_map] at hi
      rw [List.getElem?_map, l2 i hi, Option.map_some, transform_factor]
  obtain ⟨a1, a2⟩ := output_unique hz key h'
  exact ⟨a1, fun hq env => congrFun (a2 hq) env⟩

/-! ### Calculators -/

variable {C S : Type}

/-- **C103** for the RDF. Two calculators, each after any history, with a mask by types and configurations that are equal but for a common factor `c` of all scattering
factors, evaluate structures the second of which has `q` times the amount of every sort of atom: its RDF is `q` times the other one at the grid points looked at in C90. -/
theorem rdf_factors_partial (s : Sorter) (hs : SortSpec s) (conf : C → LCfg) (stru : S → RStru) (k : Cls C S) (hk : IsLibraryCalculator s conf stru k)
    (hu : Usual conf stru k) (c c' : C) (e e' : S) (ops ops' : List (POp C S)) (ha : Called conf k (pcInit k c e 0 1) ops)
    (ha' : Called conf k (pcInit k c' e' 0 1) ops')
    (ht : taintAfter k.control (pcInit k c e 0 1).h false (ops.map POp.op) = false)
    (ht' : taintAfter k.control (pcInit k c' e' 0 1).h false (ops'.map POp.op) = false) (y y' : S) (q : ℚ) (hq : q ≠ 0) (fac : ℝ) (hfac : fac ≠ 0) :
    let r := pcEval k (pcRun k (pcInit k c e 0 1) ops) y
    let r' := pcEval k (pcRun k (pcInit k c' e' 0 1) ops') y'
    let cf := conf r.h.cfg
    conf r'.h.cfg = cf.withFactor fac → Diluted q (stru y) (stru y') → TypeMask cf.mask →
    (cf.tails (stru y') = cf.tails (stru y) ∨ (cf.p.ripples + cf.tails (stru y) ≤ cf.p.maxext ∧ cf.p.ripples + cf.tails (stru y') ≤ cf.p.maxext)) →
    ∃ z z', getRDF k r = some z ∧ getRDF k r' = some z' ∧ z.length = (rgrid cf.p.rmin cf.p.rmax cf.p.rstep).length ∧ z.length = z'.length ∧
      ∀ (m : ℕ) (n : ℤ), (rgrid cf.p.rmin cf.p.rmax cf.p.rstep)[m]? = some ((n : ℝ) * cf.p.rstep) →
        (cf.p.rmin - cf.p.ripples ≤ 0 ∨ cf.p.rmin - cf.p.ripples + cf.p.rstep ≤ (n : ℝ) * cf.p.rstep) →
        ((∃ g, cf.ppf = .cropped g) ∨ ((n : ℝ) + 1) * cf.p.rstep ≤ cf.p.rmax + cf.p.ripples) → z'[m]? = z[m]?.map ((q : ℝ) * ·) := by
  intro r r' cf hcf h hm htl
  obtain ⟨z, z1, z2, z3⟩ := library_rdf_partial s hs conf stru k hk hu c e ops ha ht y
  obtain ⟨z', z1', z2', z3'⟩ := library_rdf_partial s hs conf stru k hk hu c' e' ops' ha' ht' y'
  have hcf : conf (pcEval k (pcRun k (pcInit k c' e' 0 1) ops') y').h.cfg = (conf (pcEval k (pcRun k (pcInit k c e 0 1) ops) y).h.cfg).withFactor fac := hcf
  rw [hcf] at z2' z3'
  refine ⟨z, z', z1, z1', z2, z2.trans z2'.symm, fun m n hm' hlo hup => ?_⟩
  rw [z3 m n hm' hlo hup, z3' m n hm' hlo hup, Option.map_some, ← struRDF_factors cf h hq hm fac hfac]
  exact congrArg (fun T => some (struRDF (cf.withFactor fac).pcfg (stru y') T)) (counted_same cf htl _)

/-- **C103** for G(r) and F(Q) with the cropped profile and a zero or linear baseline. -/
theorem pdf_factors_partial (s : Sorter) (hs : SortSpec s) (conf : C → LCfg) (stru : S → RStru) (k : Cls C S) (hk : IsLibraryCalculator s conf stru k)
    (hu : Usual conf stru k) (m : C → S → Mask.State) (hm : Masked (fun c => (conf c).pcfg) stru k m) (c c' : C) (e e' : S)
    (b b' : Baseline) (ops ops' : List (OOp C S)) (ha : Called conf k (pcInit k c e 0 1) (calls ops)) (ha' : Called conf k (pcInit k c' e' 0 1) (calls ops'))
    (ht : taintAfter k.control (pcInit k c e 0 1).h false ((calls ops).map POp.op) = false)
    (ht' : taintAfter k.control (pcInit k c' e' 0 1).h false ((calls ops').map POp.op) = false) (y y' : S) (hpos : 0 < atoms (sitesOf (stru y)))
    (qmin qmax : ℝ) (hqq : Fft.QOk qmin qmax) (q : ℚ) (hq : 0 < q) (fac : ℝ) (hfac : fac ≠ 0) :
    let density := fun x => densityOf (geom (stru x)).mult (stru x)
    let r := ocEval k density (ocRun k density (ocInit k density c e b 0 1) ops) y
    let r' := ocEval k density (ocRun k density (ocInit k density c' e' b' 0 1) ops') y'
    let cf := conf r.pc.h.cfg
    conf r'.pc.h.cfg = cf.withFactor fac → SameKind (lastBase b ops) (lastBase b' ops') →
    Diluted q (stru y) (stru y') → TypeMask cf.mask → cf.tails (stru y') = cf.tails (stru y) →
    rgrid cf.p.rmin cf.p.rmax cf.p.rstep ≠ [] → 1 / 2 ^ 26 < qStep (cf.pcfg.given (cf.tails (stru y))) → cf.p.rmin ≤ cf.p.ripples → (∃ g, cf.ppf = .cropped g) →
    getF k r' qmax = (getF k r qmax).map (List.map ((q : ℝ) * ·)) ∧
      (qmax < Real.pi / cf.p.rstep - 1 / 2 ^ 26 ∨ Real.pi / cf.p.rstep ≤ qmax → ∀ env,
        getPDF k r' qmin qmax env = (getPDF k r qmin qmax env).map (List.map ((q : ℝ) * ·))) := by
  intro density r r' cf hcf hb h hmk ht2 hne hres hlo hcr
  have hpos' : 0 < atoms (sitesOf (stru y')) := by
    rw [atoms_diluted h]
    exact mul_pos (by exact_mod_cast hq) hpos
  have h1 := library_pdf_partial s hs conf stru k hk hu m hm c e b ops ha ht y hpos qmin qmax hqq hne hres hlo hcr
  have h2 := library_pdf_partial s hs conf stru k hk hu m hm c' e' b' ops' ha' ht' y' hpos' qmin qmax hqq
  have hcf : conf (ocEval k density (ocRun k density (ocInit k density c' e' b' 0 1) ops') y').pc.h.cfg = cf.withFactor fac := hcf
  have ht3 : (cf.withFactor fac).tails (stru y') = cf.tails (stru y) := ht2
  dsimp only at h2
  rw [hcf, ht3] at h2
  have h2 := h2 hne hres hlo hcr
  have hz := additive_zero cf.pcfg (stru y) _ hb.additive.1
  have hz' := additive_zero (cf.withFactor fac).pcfg (stru y') _ hb.additive.2
  refine output_factor (cf := cf.pcfg.given (cf.tails (stru y))) hz q h1 ?_
  refine output_congr (g := fun n => struRDF (cf.withFactor fac).pcfg (stru y') (counted cf.pcfg (cf.tails (stru y)) (peakTerm cf.ppf ((n : ℝ) * cf.p.rstep))) / ((n : ℝ) * cf.p.rstep) +
        baseOf (cf.withFactor fac).pcfg (stru y') (lastBase b' ops') ((n : ℝ) * cf.p.rstep)) (fun n _ _ => ?_) ⟨fun hq env => ?_, h2.f⟩
  · rw [struRDF_factors cf h hq.ne' hmk fac hfac, base_diluted cf h hq.ne' hmk fac _ _ hb, mul_add, mul_div_assoc]
  · obtain ⟨l, l1, l2, l3⟩ := h2.pdf hq env
    exact ⟨l, l1, l2, fun m n hm h0 => l3 m n hm fun _ => hz'⟩

/-! ### A concrete case -/

theorem Usual.withFactor {conf : C → LCfg} {stru : S → RStru} {k : Cls C S} (h : Usual conf stru k) (g : C → ℝ) :
    Usual (fun c => (conf c).withFactor (g c)) stru k :=
  ⟨h.cls, h.geo, h.rmin, h.step, h.ext, h.qmax, h.pwm, h.ppf, h.disp, h.wide, h.short, h.mask, h.types⟩

/-- The configuration after the first evaluation of a new calculator. -/
theorem first_cfg (k : Cls C S) (c : C) (e y : S) : (pcEval k (pcInit k c e 0 1) y).h.cfg = (k.custom y c).1 := by
  show (evalSt k.control (pcInit k c e 0 1).h y).cfg = _
  rw [evalSt_eq]
  show (optFinal k.control y (pcInit k c e 0 1).h).cfg = _
  have hf : fastChoice k.control (pcInit k c e 0 1).h y = none := rfl
  unfold optFinal
  rw [hf]
  exact basicFinal_cfg k.control 0 1 y (pcInit k c e 0 1).h

theorem exDilute_stru : ExStru (· = .atomic) (dilute (1 / 2) exFew) := by
  have iso : ∀ t p o, (exIso t p o).anisotropy = false ∧ 0 < (exIso t p o).u.u1 := fun _ _ _ => ⟨rfl, by norm_num [exIso]⟩
  have e : dilute (1 / 2) exFew = ⟨.atomic, [exIso "A" 0 (1 / 2 * 1), exIso "B" 2 (1 / 2 * 1)]⟩ := rfl
  rw [e]
  refine ⟨rfl, trivial, fun a ha => ?_, fun a ha => ?_⟩ <;> simp only [List.mem_cons, List.not_mem_nil, or_false] at ha
  · rcases ha with rfl | rfl <;> exact exIso_aligned _ _ _
  · rcases ha with rfl | rfl <;> exact iso _ _ _

theorem exDilute_u : (∀ a ∈ (dilute (1 / 2) exFew).atoms, ∃ b ∈ exFew.atoms, b.u = a.u) ∧ ∀ a ∈ exFew.atoms, ∃ b ∈ (dilute (1 / 2) exFew).atoms, b.u = a.u := by
  have e : (dilute (1 / 2) exFew).atoms = [exIso "A" 0 (1 / 2 * 1), exIso "B" 2 (1 / 2 * 1)] := rfl
  have e' : ∀ t p o t' p' o', (exIso t p o).u = (exIso t' p' o').u := fun _ _ _ _ _ _ => rfl
  rw [e]
  refine ⟨fun a ha => ⟨exIso "A" 0 1, by simp [exFew], ?_⟩, fun a ha => ⟨exIso "A" 0 (1 / 2 * 1), by simp, ?_⟩⟩ <;>
    (simp only [exFew, List.mem_cons, List.not_mem_nil, or_false] at ha)
  · rcases ha with rfl | rfl <;> exact e' _ _ _ _ _ _
  · rcases ha with rfl | rfl <;> exact e' _ _ _ _ _ _

/-- New calculators, the second with factors three times those of the first: the RDF of the structure with half of all occupancies is half of the RDF. -/
example (s : Sorter) (hs : SortSpec s) :
    ∃ (k : Cls Bool {x : RStru // ExStru (· = .atomic) x}) (z : List ℝ), IsLibraryCalculator s (fun c => (exLib (20, true)).withFactor (if c then 3 else 1)) (fun x => x.1) k ∧
      getRDF k (pcEval k (pcInit k false ⟨exFew, exFew_stru.1⟩ 0 1) ⟨exFew, exFew_stru.1⟩) = some z ∧
      getRDF k (pcEval k (pcInit k true ⟨exFew, exFew_stru.1⟩ 0 1) ⟨dilute (1 / 2) exFew, exDilute_stru⟩) = some (z.map (1 / 2 * ·)) := by
  have hcls : ∀ a b : Kind Lat Sym, a = .atomic → b = .atomic → SameClass a b := by rintro _ _ rfl rfl; trivial
  obtain ⟨k, hk, hpm⟩ := library_exists s (fun c : Bool => (exLib (20, true)).withFactor (if c then 3 else 1)) (fun x : {x : RStru // ExStru (· = .atomic) x} => x.1) (fun _ => false)
  have hu : Usual (fun c : Bool => (exLib (20, true)).withFactor (if c then 3 else 1)) (fun x : {x : RStru // ExStru (· = .atomic) x} => x.1) k :=
    (exLib_usual _ hcls (fun _ : Bool => (20, true)) _ (fun x => x.2) k).withFactor fun c => if c then 3 else 1
  have hc : ∀ (c : Bool) e y, (pcEval k (pcRun k (pcInit k c e 0 1) []) y).h.cfg = c := fun c e y => by
    show (pcEval k (pcInit k c e 0 1) y).h.cfg = c
    rw [first_cfg, hk.custom]
  obtain ⟨z, z', z1, z2, z0, hlen, z4⟩ := rdf_factors_partial s hs _ _ k hk hu false true ⟨exFew, exFew_stru.1⟩ ⟨exFew, exFew_stru.1⟩ [] []
    (fun pre f _ r post e => by simp at e) (fun pre f _ r post e => by simp at e) rfl rfl ⟨exFew, exFew_stru.1⟩ ⟨dilute (1 / 2) exFew, exDilute_stru⟩
    (1 / 2) (by norm_num) 3 (by norm_num)
    (by
      rw [hc, hc]
      unfold LCfg.withFactor
      simp) (dilute_spec _ _)
    ⟨fun _ _ => true, fun _ _ _ _ => rfl⟩ (Or.inl (tails_sorts _ exDilute_u.1 exDilute_u.2))
  rw [hc] at z0 z4
  refine ⟨k, z, hk, z1, z2.trans (congrArg some (List.ext_getElem? fun m => ?_))⟩
  rw [List.getElem?_map]
  by_cases hm : m < z.length
  · have hm' := hm
    rw [z0] at hm'
    change m < (rgrid (exLib (20, true)).p.rmin (exLib (20, true)).p.rmax (exLib (20, true)).p.rstep).length at hm'
    obtain ⟨n, -, hn⟩ := List.mem_map.1 (List.getElem_mem hm')
    have hg : (rgrid (exLib (20, true)).p.rmin (exLib (20, true)).p.rmax (exLib (20, true)).p.rstep)[m]? = some ((n : ℝ) * (exLib (20, true)).p.rstep) := by
      rw [List.getElem?_eq_getElem hm']
      exact congrArg some hn.symm
    have h := z4 m n hg (Or.inl ?_) (Or.inl ⟨_, rfl⟩)
    · rw [h]
      norm_num
    · have := ripples_nonneg (exLib (20, true)).p
      have e : (exLib (20, true)).p.rmin = 0 := rfl
      have : (exLib (20, true)).p.rmin - (exLib (20, true)).p.ripples ≤ 0 := by rw [e]; linarith
      exact this
  · rw [List.getElem?_eq_none (by omega), List.getElem?_eq_none (by omega)]
    rfl

end Verif.PDFHist
