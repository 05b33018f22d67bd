import Verif.Props.Parts
import Verif.Props.BVHistory
import Verif.Props.OverlapHistory
import Verif.Props.SameExample
import Verif.Props.SameBonds
/-! C98: partial results add up.  Debye sums, bond valence sums, overlaps, bonds, and the PDF with the peaks of the library. -/
set_option linter.unusedSectionVars false

namespace Verif.PDFHist
open Verif.Eval Verif.Diff Verif.KindDiff Verif.History Verif.PDFGrid Verif.PDFCache Verif.R3 Verif.Lattice Verif.Geo
open scoped BigOperators

variable {ι : Type} [Fintype ι] {C S : Type}

/-- **C98** for G(r) and F(Q) of the PDFCalculator with the peak widths of the library and the cropped profile, and linear baselines or none. -/
theorem library_parts_partial (s : Sorter) (hs : SortSpec s) (conf : C → LCfg) (stru : S → RStru) (k : Cls C S) (hk : IsLibraryCalculator s conf stru k)
    (hu : Usual conf stru k) (m : C → S → Mask.State) (hm : Masked (fun c => (conf c).pcfg) stru k m) (c : C) (e : S)
    (b : Baseline) (ops : List (OOp C S)) (ha : Called conf k (pcInit k c e 0 1) (calls ops))
    (ht : taintAfter k.control (pcInit k c e 0 1).h false ((calls ops).map POp.op) = false)
    (cs : ι → C) (es : ι → S) (bs : ι → Baseline) (opss : ι → List (OOp C S)) (has : ∀ q, Called conf k (pcInit k (cs q) (es q) 0 1) (calls (opss q)))
    (hts : ∀ q, taintAfter k.control (pcInit k (cs q) (es q) 0 1).h false ((calls (opss q)).map POp.op) = false) (x : S) (hpos : 0 < atoms (sitesOf (stru x)))
    (qmin qmax : ℝ) (hq : Fft.QOk qmin qmax) (part : ι → ℕ → ℕ → Option Atom → Option Atom → Bool) :
    let density := fun x => densityOf (geom (stru x)).mult (stru x)
    let r := ocEval k density (ocRun k density (ocInit k density c e b 0 1) ops) x
    let rs := fun q => ocEval k density (ocRun k density (ocInit k density (cs q) (es q) (bs q) 0 1) (opss q)) x
    let cf := conf r.pc.h.cfg
    (∀ q, conf (rs q).pc.h.cfg = { cf with mask := part q }) → MasksDivide cf.mask part (stru x) →
    Additive (lastBase b ops) → (∀ q, SameKind (lastBase b ops) (lastBase (bs q) (opss q))) →
    rgrid cf.p.rmin cf.p.rmax cf.p.rstep ≠ [] → 1 / 2 ^ 26 < qStep (cf.pcfg.given (cf.tails (stru x))) → cf.p.rmin ≤ cf.p.ripples → (∃ g, cf.ppf = .cropped g) →
    (∃ (F : List ℝ) (Fs : ι → List ℝ), getF k r qmax = some F ∧ (∀ q, getF k (rs q) qmax = some (Fs q)) ∧ Adds F Fs) ∧
    (qmax < Real.pi / cf.p.rstep - 1 / 2 ^ 26 ∨ Real.pi / cf.p.rstep ≤ qmax → ∀ env : ℝ → ℝ,
      ∃ (G : List ℝ) (Gs : ι → List ℝ), getPDF k r qmin qmax env = some G ∧ (∀ q, getPDF k (rs q) qmin qmax env = some (Gs q)) ∧ Adds G Gs) := by
  intro density r rs cf hcf hd hb hbs hne hres hlo hcr
  have ht' : k.tails r.pc.h.cfg x = cf.tails (stru x) := hk.tails _ _
  have hc : Cropped (cf.pcfg).prof := by
    obtain ⟨g, hg⟩ := hcr
    show Cropped cf.ppf.prof
    have h := hu.ppf r.pc.h.cfg
    rw [show (conf r.pc.h.cfg).ppf = .cropped g from hg] at h
    rw [hg]
    exact cropped_prof g h
  refine pdf_parts s hs (fun c => (conf c).pcfg) stru k (library_calculator hk hu) (library_regular hk hu) m hm c e b ops (called_proper hk hu _ _ ha) ht cs es bs opss
    (fun q => called_proper hk hu _ _ (has q)) hts x hpos qmin qmax hq part (fun q => ?_) (fun q => ?_) hd hb hbs hne ?_ hlo hc
  · exact congrArg LCfg.pcfg (hcf q)
  · rw [hk.tails, ht', hcf q]
    rfl
  · rw [ht']; exact hres

end Verif.PDFHist

namespace Verif.DebyeHist
open Verif.Eval Verif.Diff Verif.KindDiff Verif.History Verif.R3 Verif.Lattice Verif.Geo Verif.Debye Verif.Setters
open Verif.PDFHist (POp sitesOf PWM pairWidth Called MasksDivide)
open scoped BigOperators

variable {ι : Type} [Fintype ι] {C S : Type}

theorem struSum_parts (g : Geometry) (lo hi : ℝ) (f : ℕ → ℝ) (W : ℕ → ℕ → V3 → ℝ) (whole : ℕ → ℕ → Bool) (part : ι → ℕ → ℕ → Bool) (h : Divides g.cnt whole part) (q : ℝ) :
    struSum g lo hi f W whole q = ∑ p, struSum g lo hi f W (part p) q := by
  unfold struSum
  exact h.pairs _

theorem bondCount_parts (g : Geometry) (lo hi : ℝ) (whole : ℕ → ℕ → Bool) (part : ι → ℕ → ℕ → Bool) (h : Divides g.cnt whole part) :
    (bondCount g lo hi whole : ℝ) = ∑ p, (bondCount g lo hi (part p) : ℝ) := by
  unfold bondCount
  push_cast
  rw [Finset.sum_comm]
  refine Finset.sum_congr rfl fun i h1 => ?_
  rw [Finset.sum_comm]
  refine Finset.sum_congr rfl fun j h2 => ?_
  have h1 := Finset.mem_range.1 h1
  have h2 := Finset.mem_range.1 h2
  exact h.term h1 (by omega) (((vecs g lo hi i j).length : ℕ) : ℝ)

theorem two_close {v w u p : ℝ} (h1 : |v - u| ≤ p) (h2 : |w - u| ≤ p) : |w - v| ≤ 2 * p := by
  rw [abs_le] at *
  constructor <;> linarith [h1.1, h1.2, h2.1, h2.2]

/-- **C98** for F(Q) of the Debye calculator with the peak widths of the library: the parts add up to the whole, within twice the precision bound of C56. -/
theorem debye_parts_partial (s : Sorter) (hs : SortSpec s) (conf : C → DLCfg) (stru : S → RStru) (k : Cls C S) (hk : IsLibraryDebye s conf stru k)
    (hu : UsualDebye conf stru k) (c : C) (e : S) (ops : List (POp C S)) (ha : Called conf k (dcInit k c e 0 1) ops)
    (cs : ι → C) (es : ι → S) (opss : ι → List (POp C S)) (has : ∀ q, Called conf k (dcInit k (cs q) (es q) 0 1) (opss q)) (x : S)
    (ht : strayed conf k (dcInit k c e 0 1) (ops ++ [.eval x]) = false) (hts : ∀ q, strayed conf k (dcInit k (cs q) (es q) 0 1) (opss q ++ [.eval x]) = false)
    (part : ι → ℕ → ℕ → Option Atom → Option Atom → Bool) :
    let r := dcEval k (dcRun k (dcInit k c e 0 1) ops) x
    let rs := fun q => dcEval k (dcRun k (dcInit k (cs q) (es q) 0 1) (opss q)) x
    let cf := conf r.h.cfg
    let a := sitesOf (stru x)
    (∀ q, conf (rs q).h.cfg = { cf with mask := part q }) → MasksDivide cf.mask part (stru x) →
    (∀ t (q q' : ℝ), 0 ≤ q → q ≤ q' → |cf.lookup t q'| ≤ |cf.lookup t q|) → 1 / 2 ^ 26 < atomCount a → 0 ≤ cf.d.q.prec →
    ∃ (F : List ℝ) (Fs : ι → List ℝ), getF k r = some F ∧ (∀ q, getF k (rs q) = some (Fs q)) ∧ (∀ q, (Fs q).length = F.length) ∧ ∀ m < F.length,
      let Q := (m : ℝ) * cf.d.q.qstep
      let n := atomCount a * meanFactor cf.lookup a Q ^ 2
      let bonds := (bondCount (geom (stru x)) cf.d.rcalclo cf.d.rcalchi (fun i j => cf.mask i j (stru x).atoms[i]? (stru x).atoms[j]?) : ℝ)
      (meanFactor cf.lookup a Q = 0 → F[m]? = some (∑ q, (Fs q).getD m 0)) ∧
      (meanFactor cf.lookup a Q ≠ 0 → ∃ v, F[m]? = some v ∧ |∑ q, (Fs q).getD m 0 - v| ≤ 2 * (cf.d.q.prec * bonds / n)) := by
  intro r rs cf a hcf hd hl hpos hprec
  have hd : Divides (geom (stru x)).cnt (fun i j => cf.mask i j (stru x).atoms[i]? (stru x).atoms[j]?) fun q i j => part q i j (stru x).atoms[i]? (stru x).atoms[j]? := by
    rw [geom_cnt]; exact hd
  obtain ⟨F, f1, f2, f3⟩ := library_F_partial s hs conf stru k hk hu c e ops ha x ht hl hpos hprec
  have hq := fun q => library_F_partial s hs conf stru k hk hu (cs q) (es q) (opss q) (has q) x (hts q)
  dsimp only at hq
  have hcf : ∀ q, conf (dcEval k (dcRun k (dcInit k (cs q) (es q) 0 1) (opss q)) x).h.cfg = { cf with mask := part q } := hcf
  simp only [hcf] at hq
  choose Fs g1 g2 g3 using fun q => hq q hl hpos hprec
  have hlen : ∀ q, (Fs q).length = F.length := fun q => (g2 q).trans f2.symm
  refine ⟨F, Fs, f1, g1, hlen, fun m hm => ?_⟩
  obtain ⟨y, y1, y2, y3⟩ := f3 m hm
  choose ys z1 z2 z3 using fun q => g3 q m ((hlen q).symm ▸ hm)
  have hget : ∀ q, (Fs q).getD m 0 = ys q := fun q => by rw [List.getD_eq_getElem?_getD, z1 q]; rfl
  simp only [hget]
  refine ⟨fun h0 => ?_, fun h0 => ⟨y, y1, ?_⟩⟩
  · rw [y1, y2 h0, Finset.sum_eq_zero fun q _ => z2 q h0]
  · have b1 := y3 h0
    have b2 := fun q => z3 q h0
    rw [struSum_parts _ _ _ _ _ _ _ hd] at b1
    have hsum := (Finset.abs_sum_le_sum_abs _ _).trans (Finset.sum_le_sum fun q (_ : q ∈ Finset.univ) => b2 q)
    rw [Finset.sum_sub_distrib, ← Finset.sum_div, ← Finset.sum_div, ← Finset.mul_sum, ← bondCount_parts _ _ _ _ _ hd] at hsum
    exact two_close b1 hsum

end Verif.DebyeHist

namespace Verif.BVHist
open Verif.BondGen Verif.Eval Verif.R3 Verif.Lattice Verif.Diff Verif.KindDiff Verif.Geo Verif.AssocMap
open Verif.BV hiding Op
open scoped BigOperators

variable {ι : Type} [Fintype ι]

/-! ### The parts by types of atoms -/

theorem tnorm_sym (a b : String) : Mask.tnorm a b = Mask.tnorm b a := by
  unfold Mask.tnorm
  rcases lt_trichotomy a b with h | h | h
  · rw [if_neg (not_lt.2 h.le), if_pos h]
  · rw [h]
  · rw [if_pos h, if_neg (not_lt.2 h.le)]

theorem tnorm_eq (a b x y : String) : Mask.tnorm a b = Mask.tnorm x y ↔ s(a, b) = s(x, y) := by
  constructor
  · intro h
    have e : ∀ a b : String, s((Mask.tnorm a b).1, (Mask.tnorm a b).2) = s(a, b) := fun a b => by
      unfold Mask.tnorm
      split
      · exact Sym2.eq_swap
      · rfl
    rw [← e a b, ← e x y, h]
  · intro h
    rcases Sym2.eq_iff.1 h with ⟨rfl, rfl⟩ | ⟨rfl, rfl⟩
    · rfl
    · exact tnorm_sym _ _

/-- The masks after `maskAllPairs(false)` and `setTypeMask(a, b, true)` on a new calculator. -/
def onlyTypes (a b : String) : Mask.State := Mask.step (Mask.step Mask.init (.maskAll false)) (.typ a b true)

theorem onlyTypes_typ (a b : String) (ha : Mask.canonAll a = a ∧ a ≠ Mask.allStr) : (onlyTypes a b).typ = [(Mask.tnorm a (Mask.canonAll b), true)] := by
  have hne : Mask.tnorm a (Mask.canonAll b) ≠ (Mask.allStr, Mask.allStr) := by
    intro h
    have := (tnorm_eq a (Mask.canonAll b) Mask.allStr Mask.allStr).1 h
    rcases Sym2.eq_iff.1 this with ⟨h, -⟩ | ⟨h, -⟩ <;> exact ha.2 h
  show (Mask.setTypeMask (Mask.maskAllPairs Mask.init false) a b true).typ = _
  unfold Mask.setTypeMask Mask.setTypeMask'
  rw [ha.1]
  simp only [if_neg hne]
  split <;> rfl

/-- It lets through the pairs of atoms of types `a` and `b`. -/
theorem onlyTypes_spec (x : RStru) (a b : String) (ha : Mask.canonAll a = a ∧ a ≠ Mask.allStr) (hb : Mask.canonAll b = b ∧ b ≠ Mask.allStr)
    (i j : ℕ) (hi : i < x.atoms.length) (hj : j < x.atoms.length) :
    maskIn (onlyTypes a b) x i j = true ↔ s((x.atoms[i]).atomtype, (x.atoms[j]).atomtype) = s(a, b) := by
  have ht := onlyTypes_typ a b ha
  rw [hb.1] at ht
  have hd : (onlyTypes a b).dflt = false := by
    show (Mask.setTypeMask (Mask.maskAllPairs Mask.init false) a b true).dflt = _
    unfold Mask.setTypeMask Mask.setTypeMask'
    rw [ha.1, hb.1]
    have hne : Mask.tnorm a b ≠ (Mask.allStr, Mask.allStr) := by
      intro h
      have := (tnorm_eq a b Mask.allStr Mask.allStr).1 h
      rcases Sym2.eq_iff.1 this with ⟨h, -⟩ | ⟨h, -⟩ <;> exact ha.2 h
    simp only [if_neg hne]
    split <;> rfl
  unfold maskIn Mask.maskOf Mask.hasTypeMask
  rw [ht, List.getElem?_eq_getElem hi, List.getElem?_eq_getElem hj]
  simp only [List.isEmpty_cons, Bool.not_false, if_true, Option.map_some]
  unfold Mask.getTypeMask
  rw [ht, hd]
  have hno : ∀ t, find [(Mask.tnorm a b, true)] (Mask.tnorm t Mask.allStr) = none := by
    intro t
    show (if Mask.tnorm a b = Mask.tnorm t Mask.allStr then some true else none) = none
    rw [if_neg]
    rw [tnorm_eq]
    intro h
    rcases Sym2.eq_iff.1 h with ⟨-, h⟩ | ⟨h, -⟩
    · exact hb.2 h
    · exact ha.2 h
  rw [hno, hno]
  show ((if Mask.tnorm a b = Mask.tnorm (x.atoms[i]).atomtype (x.atoms[j]).atomtype then some true else none).getD false) = true ↔ _
  rw [eq_comm (a := s((x.atoms[i]).atomtype, (x.atoms[j]).atomtype)), ← tnorm_eq]
  split
  · next h => exact ⟨fun _ => h, fun _ => rfl⟩
  · next h => exact ⟨fun hf => (by cases hf), fun hh => absurd hh h⟩

/-- One part for every pair of types divides all pairs. -/
theorem types_divide (x : RStru) (ps : ι → String × String) (hinj : ∀ q q', s((ps q).1, (ps q).2) = s((ps q').1, (ps q').2) → q = q')
    (hcov : ∀ a ∈ x.atoms, ∀ b ∈ x.atoms, ∃ q, s(a.atomtype, b.atomtype) = s((ps q).1, (ps q).2))
    (hall : ∀ q, (Mask.canonAll (ps q).1 = (ps q).1 ∧ (ps q).1 ≠ Mask.allStr) ∧ Mask.canonAll (ps q).2 = (ps q).2 ∧ (ps q).2 ≠ Mask.allStr) :
    Divides x.atoms.length (maskIn Mask.init x) fun q => maskIn (onlyTypes (ps q).1 (ps q).2) x := by
  intro i hi j hj
  refine ⟨fun _ => ?_, fun q _ => rfl⟩
  obtain ⟨q, hq⟩ := hcov _ (List.getElem_mem hi) _ (List.getElem_mem hj)
  refine ⟨q, (onlyTypes_spec x _ _ (hall q).1 (hall q).2 i j hi hj).2 hq, fun q' hq' => hinj _ _ ?_⟩
  rw [← (onlyTypes_spec x _ _ (hall q').1 (hall q').2 i j hi hj).1 hq', hq]

/-- **C98** for bond valence sums: calculators with the same parameters whose masks divide the pairs. -/
theorem sums_parts_partial (e : Env) (heap : ℕ → Table ℝ) (cs : List Call) (hp : Proper e heap cs) (h1 : (lastCpu cs).2 = 1)
    (css : ι → List Call) (hps : ∀ q, Proper e heap (css q)) (h1s : ∀ q, (lastCpu (css q)).2 = 1)
    (htab : ∀ q, tableNow heap (lastTable (css q)) (css q) = tableNow heap (lastTable cs) cs) (hrmax : ∀ q, lastRmax (css q) = lastRmax cs) (heps : ∀ q, lastEps (css q) = lastEps cs)
    (x : RStru) (hd : Divides x.atoms.length (maskIn (maskNow cs) x) fun q => maskIn (maskNow (css q)) x) (hok : (geom x).Ok)
    (hmult : ∀ i < x.atoms.length, ∀ j < x.atoms.length, (geom x).mult i = (geom x).mult j) (hall : Mask.allStr ∉ x.atoms.map fun a => a.atomtype)
    (so : List (Int × Bool)) (td : List (Mask.TKey × Bool)) (hv : (Mask.Op.stru [] so td).Valid (run e (new heap) cs).mask)
    (sos : ι → List (Int × Bool)) (tds : ι → List (Mask.TKey × Bool)) (hvs : ∀ q, (Mask.Op.stru [] (sos q) (tds q)).Valid (run e (new heap) (css q)).mask)
    (gen : ℝ → ℝ → Gen Bond) (hgen : ∀ R, (geom x).IsGen 0 R (gen 0 R)) (gens : ι → ℝ → ℝ → Gen Bond) (hgens : ∀ q R, (geom x).IsGen 0 R (gens q 0 R)) :
    Adds (run e (new heap) (cs ++ [.eval x so td gen])).value fun q => (run e (new heap) (css q ++ [.eval x (sos q) (tds q) (gens q)])).value := by
  have h := (sums_history_partial e heap cs hp x hok hmult hall so td hv gen hgen h1).value
  have hq := fun q => (sums_history_partial e heap (css q) (hps q) x hok hmult hall (sos q) (tds q) (hvs q) (gens q) (hgens q) (h1s q)).value
  refine ⟨fun q => by beta_reduce; rw [h, hq q, List.length_map, List.length_map], fun m hm => ?_⟩
  rw [h, List.length_map, List.length_range] at hm
  have hc : (geom x).cnt = x.atoms.length := geom_cnt x
  have get : ∀ f : ℕ → ℝ, ((List.range x.atoms.length).map f)[m]? = some (f m) := fun f => by
    rw [List.getElem?_map, List.getElem?_range hm]; rfl
  rw [h, get]
  have e2 : ∀ q, (run e (new heap) (css q ++ [.eval x (sos q) (tds q) (gens q)])).value.getD m 0 =
      weightedSum e.std (tableNow heap (lastTable cs) cs) (geom x) (siteAt x) (maskIn (maskNow (css q)) x) (cutoff e (tableNow heap (lastTable cs) cs) x (lastRmax cs) (lastEps cs)) (fun _ => 1) m := by
    intro q
    rw [List.getD_eq_getElem?_getD, hq q, get, htab, hrmax, heps]
    rfl
  rw [Finset.sum_congr rfl fun q _ => e2 q]
  unfold weightedSum
  rw [hc, hd.row hm]

/-! ### A concrete case -/

/-- The pairs of types of the two ions. -/
def exPairs : Fin 3 → String × String := ![("Na1+", "Na1+"), ("Na1+", "Cl1-"), ("Cl1-", "Cl1-")]

/-- The calls that leave the pairs of two types. -/
def exParts (q : Fin 3) : List Call := [.mask (.maskAll false), .mask (.typ (exPairs q).1 (exPairs q).2 true)]

example (std : SetBV ℝ) (heap : ℕ → Table ℝ) :
    Adds (run (exEnv std) (new heap) ([] ++ [.eval exIons [] [] (exGen exIons)])).value
      fun q : Fin 3 => (run (exEnv std) (new heap) (exParts q ++ [.eval exIons [] [(Mask.tnorm (exPairs q).1 (exPairs q).2, true)] (exGen exIons)])).value := by
  have hcan : ∀ q, (Mask.canonAll (exPairs q).1 = (exPairs q).1 ∧ (exPairs q).1 ≠ Mask.allStr) ∧ Mask.canonAll (exPairs q).2 = (exPairs q).2 ∧ (exPairs q).2 ≠ Mask.allStr := by decide
  have hm : ∀ q, maskNow (exParts q) = onlyTypes (exPairs q).1 (exPairs q).2 := fun q => rfl
  refine sums_parts_partial (exEnv std) heap [] ⟨?_, ?_, ?_⟩ rfl exParts (fun q => ⟨?_, ?_, ?_⟩) (fun q => rfl) (fun q => rfl) (fun q => rfl) (fun q => rfl) exIons ?_ trivial
    (fun _ _ _ _ => rfl) (by decide) [] [] ⟨List.Perm.refl _, List.Perm.refl _⟩ (fun _ => []) (fun q => [(Mask.tnorm (exPairs q).1 (exPairs q).2, true)]) (fun q => ?_)
    (exGen exIons) (fun R => (gen_exists _ _ _).choose_spec) (fun _ => exGen exIons) (fun _ R => (gen_exists _ _ _).choose_spec)
  · intro pre op post h
    exact absurd h (by simp)
  · intro pre x so td post h
    exact absurd h (by simp)
  · intro pre x so td gen post h
    exact absurd h (by simp)
  · intro pre op post h
    rcases pre with _ | ⟨c, _ | ⟨c', pre⟩⟩
    · cases h; exact ⟨trivial, trivial⟩
    · cases h
      exact ⟨trivial, fun _ _ _ _ hh => by cases hh⟩
    · exact absurd h (by simp [exParts])
  · intro pre x so td post h
    rcases pre with _ | ⟨c, _ | ⟨c', pre⟩⟩
    · cases h
    · cases h
    · exact absurd h (by simp [exParts])
  · intro pre x so td gen post h
    rcases pre with _ | ⟨c, _ | ⟨c', pre⟩⟩
    · cases h
    · cases h
    · exact absurd h (by simp [exParts])
  · simp only [hm]
    refine types_divide exIons exPairs ?_ ?_ hcan
    · decide
    · decide
  · have : (run (exEnv std) (new heap) (exParts q)).mask = onlyTypes (exPairs q).1 (exPairs q).2 := rfl
    rw [this]
    refine ⟨?_, ?_⟩
    · fin_cases q <;> exact List.Perm.refl _
    · have h := onlyTypes_typ (exPairs q).1 (exPairs q).2 (hcan q).1
      rw [(hcan q).2.1] at h
      rw [h]

end Verif.BVHist

namespace Verif.OlpHist
open Verif.BondGen Verif.Eval Verif.R3 Verif.Lattice Verif.Diff Verif.KindDiff Verif.Geo Verif.Overlap Verif.AssocMap
open Verif.BVHist (maskIn)
open scoped BigOperators

variable {ι : Type} [Fintype ι]

/-- **C98** for overlaps: square overlaps, coordination, total and mean, of calculators with the same radii and limits whose masks divide the pairs. -/
theorem overlap_parts (num : List Char → Option ℝ) (heap : ℕ → RTable) (cs : List Call) (hp : Proper num heap cs) (h1 : (lastCpu cs).2 = 1)
    (css : ι → List Call) (hps : ∀ q, Proper num heap (css q)) (h1s : ∀ q, (lastCpu (css q)).2 = 1)
    (htab : ∀ q, tableNow num heap (lastTable (css q)) (css q) = tableNow num heap (lastTable cs) cs) (hrmin : ∀ q, lastRmin (css q) = lastRmin cs)
    (hrmax : ∀ q, lastRmax (css q) = lastRmax cs)
    (x : RStru) (hd : Divides x.atoms.length (maskIn (maskNow cs) x) fun q => maskIn (maskNow (css q)) x) (hok : (geom x).Ok)
    (hall : Mask.allStr ∉ x.atoms.map fun a => a.atomtype)
    (so : List (Int × Bool)) (td : List (Mask.TKey × Bool)) (hv : (Mask.Op.stru [] so td).Valid (run num (new heap) cs).mask)
    (sos : ι → List (Int × Bool)) (tds : ι → List (Mask.TKey × Bool)) (hvs : ∀ q, (Mask.Op.stru [] (sos q) (tds q)).Valid (run num (new heap) (css q)).mask)
    (gen : ℝ → ℝ → Gen Bond) (hgen : ∀ lo hi, (geom x).IsGen lo hi (gen lo hi)) (gens : ι → ℝ → ℝ → Gen Bond) (hgens : ∀ q lo hi, (geom x).IsGen lo hi (gens q lo hi)) :
    let s := run num (new heap) (cs ++ [.eval x so td gen])
    let ss := fun q => run num (new heap) (css q ++ [.eval x (sos q) (tds q) (gens q)])
    (∀ k < x.atoms.length, (s.siteSquareOverlaps x)[k]? = some (∑ q, ((ss q).siteSquareOverlaps x).getD k 0) ∧
      (s.coordinations x)[k]? = some (∑ q, ((ss q).coordinations x).getD k 0) ∧
      (∀ tp, (find (s.coordinationByTypes x k) tp).getD 0 = ∑ q, (find ((ss q).coordinationByTypes x k) tp).getD 0) ∧
      ∀ j, j ∈ s.getNeighborSites x k ↔ ∃ q, j ∈ (ss q).getNeighborSites x k) ∧
    s.totalSquareOverlap x = ∑ q, (ss q).totalSquareOverlap x ∧ s.meanSquareOverlap x = ∑ q, (ss q).meanSquareOverlap x := by
  intro s ss
  have h := (overlap_history num heap cs hp x hok hall so td hv gen hgen h1 [] (by simp)).1
  have hq := fun q => (overlap_history num heap (css q) (hps q) x hok hall (sos q) (tds q) (hvs q) (gens q) (hgens q) (h1s q) [] (by simp)).1
  simp only [htab, hrmin, hrmax] at hq
  set t := tableNow num heap (lastTable cs) cs with ht
  have hcnt : (sitesIn t x).cnt = x.atoms.length := rfl
  have htot : Overlap.total (sitesIn t x) (geom x) (maskIn (maskNow cs) x) (lastRmin cs) (lastRmax cs) =
      ∑ q, Overlap.total (sitesIn t x) (geom x) (maskIn (maskNow (css q)) x) (lastRmin cs) (lastRmax cs) := by
    unfold Overlap.total
    rw [hcnt, hd.pairs, Finset.sum_div]
  refine ⟨fun k hk => ⟨?_, ?_, fun tp => ?_, fun j => ?_⟩, ?_, ?_⟩
  · rw [h.square k hk, hd.row hk, Finset.sum_div]
    refine congrArg some (Finset.sum_congr rfl fun q _ => ?_)
    rw [List.getD_eq_getElem?_getD, (hq q).square k hk]
    rfl
  · rw [h.coord k hk, hd.row hk]
    refine congrArg some (Finset.sum_congr rfl fun q _ => ?_)
    rw [List.getD_eq_getElem?_getD, (hq q).coord k hk]
    rfl
  · rw [(h.byType k hk tp).1, Finset.sum_congr rfl fun q _ => ((hq q).byType k hk tp).1, Finset.sum_comm]
    refine Finset.sum_congr rfl fun j hj => ?_
    have key := hd.term hk (Finset.mem_range.1 hj) (if (sitesIn t x).typ j = tp then (sitesIn t x).occ j * contacts (sitesIn t x) (geom x) (lastRmin cs) (lastRmax cs) k j else 0)
    simp only [ite_and]
    exact key
  · rw [((h.neighbors k hk).2 j)]
    constructor
    · rintro ⟨a, b, c⟩
      obtain ⟨q, hq1, -⟩ := (hd k hk j a).1 b
      exact ⟨q, (((hq q).neighbors k hk).2 j).2 ⟨a, hq1, c⟩⟩
    · rintro ⟨q, hj⟩
      obtain ⟨a, b, c⟩ := (((hq q).neighbors k hk).2 j).1 hj
      exact ⟨a, (hd k hk j a).2 q b, c⟩
  · rw [h.total, Finset.sum_congr rfl fun q _ => (hq q).total, htot]
  · have hm := h.mean
    have hms := fun q => (hq q).mean
    dsimp only at hm hms
    rw [hm, Finset.sum_congr rfl fun q _ => hms q]
    split
    · rw [htot, Finset.sum_div]
    · rw [Finset.sum_const_zero]

end Verif.OlpHist

namespace Verif.BondCalc
open Verif.BondGen Verif.Eval Verif.R3 Verif.Lattice Verif.Diff Verif.KindDiff Verif.Geo Verif.History
open Verif.PDFHist (MasksDivide)
open scoped BigOperators

variable {ι : Type} [Fintype ι]

/-- **C98** for BondCalculator: the bonds listed by calculators whose masks divide the pairs are together those listed for all pairs, and so are the distances. -/
theorem bonds_parts_partial (cls : Kind Lat Sym → Prop) (hcls : ∀ a b, cls a → cls b → SameClass a b) (s : Sorter)
    (k : Cls BCfg (SStru cls) ℝ) (hk : IsBondCalculator cls s k) (fill : Entry ℝ) (c : BCfg) (e : SStru cls) (ops : List (BOp BCfg (SStru cls)))
    (ha : ∀ op ∈ ops, BAllowed op) (ht : taintAfter k.calc (bcInit (R := ℝ) c e).h false (ops.map BOp.op) = false)
    (cs : ι → BCfg) (es : ι → SStru cls) (opss : ι → List (BOp BCfg (SStru cls))) (has : ∀ q, ∀ op ∈ opss q, BAllowed op)
    (hts : ∀ q, taintAfter k.calc (bcInit (R := ℝ) (cs q) (es q)).h false ((opss q).map BOp.op) = false) (stru : SStru cls)
    (part : ι → ℕ → ℕ → Option Atom → Option Atom → Bool) :
    let r := bcEval k fill (bcRun k fill (bcInit c e) ops) stru
    let rs := fun q => bcEval k fill (bcRun k fill (bcInit (cs q) (es q)) (opss q)) stru
    (∀ q, (rs q).h.cfg = { r.h.cfg with mask := part q }) → MasksDivide r.h.cfg.mask part stru.1 →
    (r.d.bonds : Multiset (Entry ℝ)) = ∑ q, ((rs q).d.bonds : Multiset (Entry ℝ)) ∧
    (r.d.value : Multiset ℝ) = ∑ q, ((rs q).d.value : Multiset ℝ) := by
  classical
  intro r rs hcf hd
  have h := bond_history_partial cls hcls s k hk fill c e ops ha ht stru
  have hq := fun q => bond_history_partial cls hcls s k hk fill (cs q) (es q) (opss q) (has q) (hts q) stru
  obtain ⟨-, h2, h3, h4⟩ := h
  choose g1 g2 g3 g4 using hq
  have g4 : ∀ q b, b ∈ (rs q).d.bonds ↔ IsBond (geom stru.1) (fun i j => (rs q).h.cfg.mask i j stru.1.atoms[i]? stru.1.atoms[j]?)
      (activeCones [] (rs q).h.cfg.cones) (rs q).h.cfg.rmin (rs q).h.cfg.rmax b := g4
  simp only [hcf] at g4
  have hb : (r.d.bonds : Multiset (Entry ℝ)) = ∑ q, ((rs q).d.bonds : Multiset (Entry ℝ)) := by
    refine Multiset.ext.2 fun b => ?_
    rw [Multiset.count_sum']
    have e1 : ∀ q, Multiset.count b ((rs q).d.bonds : Multiset (Entry ℝ)) = if b ∈ (rs q).d.bonds then 1 else 0 := fun q => by
      rw [Multiset.coe_count]; exact List.Nodup.count (g2 q)
    have e0 : Multiset.count b (r.d.bonds : Multiset (Entry ℝ)) = if b ∈ r.d.bonds then 1 else 0 := by
      rw [Multiset.coe_count]; exact List.Nodup.count h2
    rw [e0, Finset.sum_congr rfl fun q _ => e1 q]
    by_cases hl : b.site0 < stru.1.atoms.length ∧ b.site1 < stru.1.atoms.length
    · by_cases hrest : (geom stru.1).IsVec b.site0 b.site1 b.direction ∧ InRange r.h.cfg.rmin r.h.cfg.rmax (V3.norm b.direction) ∧
          b.distance = V3.norm b.direction ∧ (activeCones [] r.h.cfg.cones = [] ∨ ∃ c ∈ activeCones [] r.h.cfg.cones, angleDeg b.direction c.1 ≤ c.2)
      · have w : (b ∈ r.d.bonds) ↔ r.h.cfg.mask b.site0 b.site1 stru.1.atoms[b.site0]? stru.1.atoms[b.site1]? = true := by
          rw [h4]
          have hc := geom_cnt stru.1
          exact ⟨fun h => h.2.2.1, fun h => ⟨hc ▸ hl.1, hc ▸ hl.2, h, hrest⟩⟩
        have ws : ∀ q, (b ∈ (rs q).d.bonds) ↔ part q b.site0 b.site1 stru.1.atoms[b.site0]? stru.1.atoms[b.site1]? = true := by
          intro q
          rw [g4]
          have hc := geom_cnt stru.1
          exact ⟨fun h => h.2.2.1, fun h => ⟨hc ▸ hl.1, hc ▸ hl.2, h, hrest⟩⟩
        simp only [w, ws]
        exact hd.term hl.1 hl.2 1
      · rw [if_neg fun h => hrest ((h4 b).1 h).2.2.2, Finset.sum_eq_zero fun q _ => if_neg fun h => hrest ((g4 q b).1 h).2.2.2]
    · have hc := geom_cnt stru.1
      rw [if_neg fun h => hl ⟨hc ▸ ((h4 b).1 h).1, hc ▸ ((h4 b).1 h).2.1⟩,
        Finset.sum_eq_zero fun q _ => if_neg fun h => hl ⟨hc ▸ ((g4 q b).1 h).1, hc ▸ ((g4 q b).1 h).2.1⟩]
  refine ⟨hb, ?_⟩
  have hv : ∀ q, ((rs q).d.value : Multiset ℝ) = ((rs q).d.bonds : Multiset (Entry ℝ)).map Entry.distance := fun q => by
    rw [show (rs q).d.value = distances (rs q).d from g3 q]; rfl
  rw [show r.d.value = distances r.d from h3, show ((distances r.d : List ℝ) : Multiset ℝ) = (r.d.bonds : Multiset (Entry ℝ)).map Entry.distance from rfl, hb,
    Finset.sum_congr rfl fun q _ => hv q]
  exact map_sum (Multiset.mapAddMonoidHom Entry.distance) _ _

end Verif.BondCalc

namespace Verif.PDFHist
open Verif.Eval Verif.Diff Verif.KindDiff Verif.History Verif.PDFGrid Verif.PDFCache Verif.R3 Verif.Lattice Verif.Geo
open scoped BigOperators

/-! ### A concrete case -/

/-- Atoms of one type (`true`) or of two types (`false`). -/
def exTypes (b : Bool) (a a' : Option Atom) : Bool := decide (a.map Atom.atomtype = a'.map Atom.atomtype) == b

/-- Calculators for all pairs, for pairs of one type and for pairs of two types. -/
noncomputable def exThree : Option Bool → LCfg
  | none => exLib (20, true)
  | some b => { exLib (20, true) with mask := fun _ _ => exTypes b }

/-- A calculator that leaves its configuration alone has the same one after an evaluation. -/
theorem eval_keeps {B G : Type} [AddCommGroup G] (K : Calc C S B G) (hc : ∀ x c, (K.custom x c).1 = c) (st : St C S G) (x : S) :
    (evalSt K st x).cfg = st.cfg := by
  have hopt : (optFinal K x st).cfg = st.cfg := by
    unfold optFinal
    cases fastChoice K st x with
    | none => exact (basicFinal_cfg K st.cpuindex st.ncpu x st).trans (hc _ _)
    | some p =>
      obtain ⟨s0, d⟩ := p
      dsimp only
      have hm : (midFast K s0 x d (setUsed .optimized st)).cfg = st.cfg := by rw [midFast_cfg, hc]; rfl
      split
      · exact (basicFinal_cfg K st.cpuindex st.ncpu x (midFast K s0 x d (setUsed .optimized st))).trans ((hc _ _).trans hm)
      · exact hm
  rw [evalSt_eq]
  cases st.evtype with
  | none => exact (basicFinal_cfg _ _ _ _ _).trans (hc _ _)
  | basic => exact (basicFinal_cfg _ _ _ _ _).trans (hc _ _)
  | optimized => exact hopt
  | check =>
    dsimp only
    unfold checkFinal
    dsimp only
    split
    · exact hopt
    · exact (basicFinal_cfg K st.cpuindex st.ncpu x (doSave (optFinal K x st))).trans ((hc _ _).trans hopt)

theorem exTypes_divides (x : RStru) : MasksDivide (fun _ _ _ _ => true) (fun b _ _ => exTypes b) x := by
  intro i _ j _
  refine ⟨fun _ => ?_, fun _ _ => rfl⟩
  refine ⟨decide (x.atoms[i]?.map Atom.atomtype = x.atoms[j]?.map Atom.atomtype), by simp [exTypes], fun q hq => ?_⟩
  simpa [exTypes] using Eq.symm (by simpa [exTypes] using hq)

example (s : Sorter) (hs : SortSpec s) (cls : Kind Lat Sym → Prop) (hcls : ∀ a b, cls a → cls b → SameClass a b) (x : {x : RStru // ExStru cls x}) :
    ∃ (k : Cls (Option Bool) {x : RStru // ExStru cls x}) (z : List ℝ) (zs : Bool → List ℝ), IsLibraryCalculator s exThree (fun x => x.1) k ∧
      getRDF k (pcEval k (pcInit k none x 0 1) x) = some z ∧ (∀ q, getRDF k (pcEval k (pcInit k (some q) x 0 1) x) = some (zs q)) ∧
      ∀ m < z.length, z[m]? = some ((zs true).getD m 0 + (zs false).getD m 0) := by
  obtain ⟨k, hk, hpm⟩ := library_exists s exThree (fun x : {x : RStru // ExStru cls x} => x.1) (fun _ => false)
  have h0 := exLib_usual cls hcls (fun _ : Option Bool => (20, true)) (fun x : {x : RStru // ExStru cls x} => x.1) (fun x => x.2) k
  have hu : Usual exThree (fun x : {x : RStru // ExStru cls x} => x.1) k := by
    refine ⟨h0.cls, h0.geo, fun c => ?_, fun c => ?_, fun c => ?_, fun c => ?_, fun c => ?_, fun c => ?_, h0.disp, fun c => ?_, fun c => ?_, fun c => ?_, fun c => ?_⟩
    · cases c <;> exact h0.rmin none
    · cases c <;> exact h0.step none
    · cases c <;> exact h0.ext none
    · cases c <;> exact h0.qmax none
    · cases c <;> exact h0.pwm none
    · cases c <;> exact h0.ppf none
    · cases c <;> exact h0.wide none
    · cases c <;> exact h0.short none
    · cases c with
      | none => exact h0.mask none
      | some b =>
        intro i j a b'
        show exTypes b a b' = exTypes b b' a
        have e : decide (a.map Atom.atomtype = b'.map Atom.atomtype) = decide (b'.map Atom.atomtype = a.map Atom.atomtype) := by
          rw [Bool.eq_iff_iff]; simp only [decide_eq_true_eq]; exact eq_comm
        unfold exTypes
        rw [e]
    · cases c with
      | none => exact fun _ _ _ _ _ _ _ => rfl
      | some b => exact fun _ _ _ _ _ _ _ => rfl
  have hcfg : ∀ c, (pcEval k (pcInit k c x 0 1) x).h.cfg = c := fun c =>
    eval_keeps k.control (fun y c' => congrArg Prod.fst (hk.custom y c')) (pcInit k c x 0 1).h x
  obtain ⟨z, zs, z1, z2, hlen, -, z4⟩ := rdf_parts s hs (fun c => (exThree c).pcfg) (fun x : {x : RStru // ExStru cls x} => x.1) k (library_calculator hk hu) (library_regular hk hu)
    none x [] (fun pre f r post e => by simp at e) rfl (fun q : Bool => some q) (fun _ => x) (fun _ => []) (fun q pre f r post e => by simp at e) (fun _ => rfl) x
    (fun b _ _ => exTypes b)
    (fun q => by
      have e : ∀ c c', c = some q → c' = none → (exThree c).pcfg = { (exThree c').pcfg with mask := fun _ _ => exTypes q } := by
        rintro _ _ rfl rfl; rfl
      exact e _ _ (hcfg _) (hcfg _))
    (fun q => by
      change k.tails (pcEval k (pcInit k (some q) x 0 1) x).h.cfg x = k.tails (pcEval k (pcInit k none x 0 1) x).h.cfg x
      rw [hcfg, hcfg, hk.tails, hk.tails]; rfl)
    (by
      change MasksDivide (exThree (pcEval k (pcInit k none x 0 1) x).h.cfg).pcfg.mask _ x.1
      rw [hcfg]; exact exTypes_divides x.1)
  change z.length = (rgrid (exThree (pcEval k (pcInit k none x 0 1) x).h.cfg).pcfg.par.rmin (exThree (pcEval k (pcInit k none x 0 1) x).h.cfg).pcfg.par.rmax
    (exThree (pcEval k (pcInit k none x 0 1) x).h.cfg).pcfg.par.dr).length at hlen
  change ∀ (m : ℕ) (n : ℤ), (rgrid (exThree (pcEval k (pcInit k none x 0 1) x).h.cfg).pcfg.par.rmin (exThree (pcEval k (pcInit k none x 0 1) x).h.cfg).pcfg.par.rmax
    (exThree (pcEval k (pcInit k none x 0 1) x).h.cfg).pcfg.par.dr)[m]? = some ((n : ℝ) * (exThree (pcEval k (pcInit k none x 0 1) x).h.cfg).pcfg.par.dr) →
    Seen (exThree (pcEval k (pcInit k none x 0 1) x).h.cfg).pcfg n → z[m]? = some (∑ q, (zs q).getD m 0) at z4
  rw [hcfg] at hlen
  rw [hcfg] at z4
  refine ⟨k, z, zs, hk, z1, z2, fun m hm => ?_⟩
  rw [hlen] at hm
  obtain ⟨n, -, hn⟩ := List.mem_map.1 (List.getElem_mem hm)
  rw [z4 m n (by rw [List.getElem?_eq_getElem hm, ← hn]) (show Seen _ n from ⟨Or.inl ?_, Or.inr (cropped_prof Peak.Cropped.new (h0.ppf none))⟩)]
  · rw [Fintype.sum_bool]
  · have := ripples_nonneg (exLib (20, true)).p
    have e : (exLib (20, true)).p.rmin = 0 := rfl
    have : (exLib (20, true)).p.rmin - (exLib (20, true)).p.ripples ≤ 0 := by rw [e]; linarith
    exact this

end Verif.PDFHist
