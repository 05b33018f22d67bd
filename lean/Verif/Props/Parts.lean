import Verif.Props.SamePDF
import Verif.Props.SameDebye
/-! C98: partial results, of calculators whose masks divide the pairs, add up to the result for all pairs.  RDF, G(r) and F(Q). -/
set_option linter.unusedSectionVars false
namespace Verif.Geo
open scoped BigOperators

/-! ### Specification -/

/-- The masks `part` divide the pairs of `n` sites that `whole` lets through: each of these pairs is let through by exactly one of them, other pairs by none. -/
def Divides {ι : Type} (n : ℕ) (whole : ℕ → ℕ → Bool) (part : ι → ℕ → ℕ → Bool) : Prop :=
  ∀ i < n, ∀ j < n, (whole i j = true → ∃! q, part q i j = true) ∧ ∀ q, part q i j = true → whole i j = true

/-- The results `zs` add up to `z` at every position. -/
def Adds {ι : Type} [Fintype ι] (z : List ℝ) (zs : ι → List ℝ) : Prop :=
  (∀ q, (zs q).length = z.length) ∧ ∀ m < z.length, z[m]? = some (∑ q, (zs q).getD m 0)

/-! ### Proof -/

variable {ι : Type} [Fintype ι]

theorem Divides.term {n : ℕ} {whole : ℕ → ℕ → Bool} {part : ι → ℕ → ℕ → Bool} (h : Divides n whole part) {A : Type} [AddCommMonoid A] {i j : ℕ} (hi : i < n) (hj : j < n) (a : A) :
    (if whole i j = true then a else 0) = ∑ q, if part q i j = true then a else 0 := by
  classical
  obtain ⟨h1, h2⟩ := h i hi j hj
  by_cases hw : whole i j = true
  · obtain ⟨q, hq, hu⟩ := h1 hw
    rw [if_pos hw, Finset.sum_eq_single q, if_pos hq]
    · intro b _ hb
      exact if_neg fun hp => hb (hu b hp)
    · exact fun hn => absurd (Finset.mem_univ q) hn
  · rw [if_neg hw, Finset.sum_eq_zero]
    intro q _
    exact if_neg fun hp => hw (h2 q hp)

theorem Divides.row {n : ℕ} {whole : ℕ → ℕ → Bool} {part : ι → ℕ → ℕ → Bool} (h : Divides n whole part) {i : ℕ} (hi : i < n) (f : ℕ → ℝ) :
    (∑ j ∈ Finset.range n, if whole i j = true then f j else 0) = ∑ q, ∑ j ∈ Finset.range n, if part q i j = true then f j else 0 := by
  rw [Finset.sum_comm]
  exact Finset.sum_congr rfl fun j hj => h.term hi (Finset.mem_range.1 hj) _

theorem Divides.pairs {n : ℕ} {whole : ℕ → ℕ → Bool} {part : ι → ℕ → ℕ → Bool} (h : Divides n whole part) (f : ℕ → ℕ → ℝ) :
    (∑ i ∈ Finset.range n, ∑ j ∈ Finset.range n, if whole i j = true then f i j else 0) =
      ∑ q, ∑ i ∈ Finset.range n, ∑ j ∈ Finset.range n, if part q i j = true then f i j else 0 := by
  exact (Finset.sum_congr rfl fun i hi => h.row (Finset.mem_range.1 hi) _).trans Finset.sum_comm

/-- A mask and its inversion. -/
theorem divides_not (n : ℕ) (m : ℕ → ℕ → Bool) : Divides n (fun _ _ => true) fun (q : Bool) i j => (m i j == q) := by
  intro i _ j _
  refine ⟨fun _ => ⟨m i j, by simp, fun q hq => by simpa using Eq.symm (by simpa using hq)⟩, fun q _ => rfl⟩

/-- The pairs by the two types of their atoms: one part for every unordered pair of types. -/
theorem divides_types {T : Type} [DecidableEq T] (n : ℕ) (typ : ℕ → T) (ts : Finset (Sym2 T)) (h : ∀ i < n, ∀ j < n, s(typ i, typ j) ∈ ts) :
    Divides n (fun _ _ => true) fun (q : ts) i j => decide (s(typ i, typ j) = q.1) := by
  intro i hi j hj
  refine ⟨fun _ => ⟨⟨s(typ i, typ j), h i hi j hj⟩, by simp, fun q hq => Subtype.ext (of_decide_eq_true hq).symm⟩, fun q _ => rfl⟩

end Verif.Geo

namespace Verif.PDFHist
open Verif.Eval Verif.Diff Verif.KindDiff Verif.History Verif.PDFGrid Verif.PDFCache Verif.R3 Verif.Lattice Verif.Geo
open scoped BigOperators

/-! ### Specification -/

/-- The masks `part` divide the pairs of the structure that `whole` lets through. -/
def MasksDivide {ι : Type} (whole : ℕ → ℕ → Option Atom → Option Atom → Bool) (part : ι → ℕ → ℕ → Option Atom → Option Atom → Bool) (x : RStru) : Prop :=
  Divides x.atoms.length (fun i j => whole i j x.atoms[i]? x.atoms[j]?) fun q i j => part q i j x.atoms[i]? x.atoms[j]?

/-- Baselines that add up when masks do: linear ones (their slope follows the mask), or none. -/
def Additive (b : Baseline) : Prop := (∃ slope, b = .linear slope) ∨ b = .other fun _ => 0

/-- Two baselines of one kind. -/
def SameKind (b b' : Baseline) : Prop := (∃ t t', b = .linear t ∧ b' = .linear t') ∨ (b = .other fun _ => 0) ∧ b' = .other fun _ => 0

/-! ### Proof -/

variable {ι : Type} [Fintype ι]

theorem struRDF_parts (c : PCfg) (part : ι → ℕ → ℕ → Option Atom → Option Atom → Bool) (x : RStru) (h : MasksDivide c.mask part x) (T : ℝ → V3 → ℝ) :
    struRDF c x T = ∑ q, struRDF { c with mask := part q } x T := by
  have key := Divides.pairs h fun i j => ((geom x).mult i : ℝ) * (atomFactor c x.atoms[i]? * atomFactor c x.atoms[j]? * (geom x).sum i j fun v => T (c.W x i j v) v)
  exact (congrArg (· / (atoms (sitesOf x) * fAverage c.lookup (sitesOf x) ^ 2)) key).trans (Finset.sum_div _ _ _)

theorem sitesOf_length (x : RStru) : (sitesOf x).length = x.atoms.length := by
  unfold sitesOf
  simp

theorem activeFraction_parts (x : RStru) (whole : ℕ → ℕ → Bool) (part : ι → ℕ → ℕ → Bool) (h : Divides x.atoms.length whole part) :
    activeFraction whole (sitesOf x) = ∑ q, activeFraction (part q) (sitesOf x) := by
  unfold activeFraction
  rw [← Finset.sum_div, sitesOf_length]
  congr 1
  exact h.pairs _

theorem base_parts (c : PCfg) (part : ι → ℕ → ℕ → Option Atom → Option Atom → Bool) (x : RStru) (h : MasksDivide c.mask part x) (b : Baseline) (bs : ι → Baseline)
    (hb : ∀ q, SameKind b (bs q)) (ha : Additive b) (r : ℝ) : baseOf c x b r = ∑ q, baseOf { c with mask := part q } x (bs q) r := by
  rcases ha with ⟨sl, rfl⟩ | rfl
  · have e : ∀ q, baseOf { c with mask := part q } x (bs q) r =
        -(4 * Real.pi * numberDensity x * activeFraction (fun i j => part q i j x.atoms[i]? x.atoms[j]?) (sitesOf x)) * r := by
      intro q
      rcases hb q with ⟨t, t', -, h2⟩ | ⟨h1, -⟩
      · rw [h2]; rfl
      · cases h1
    rw [Finset.sum_congr rfl fun q _ => e q]
    show -(4 * Real.pi * numberDensity x * activeFraction (fun i j => c.mask i j x.atoms[i]? x.atoms[j]?) (sitesOf x)) * r = _
    rw [activeFraction_parts x _ _ h, Finset.mul_sum, ← Finset.sum_neg_distrib, Finset.sum_mul]
  · have e : ∀ q, baseOf { c with mask := part q } x (bs q) r = 0 := by
      intro q
      rcases hb q with ⟨t, t', h1, -⟩ | ⟨-, h2⟩
      · cases h1
      · rw [h2]; rfl
    rw [Finset.sum_eq_zero fun q _ => e q]
    rfl

theorem additive_zero (c : PCfg) (x : RStru) (b : Baseline) (ha : Additive b) : baseOf c x b 0 = 0 := by
  rcases ha with ⟨sl, rfl⟩ | rfl
  · show _ * (0 : ℝ) = 0
    rw [mul_zero]
  · rfl

theorem SameKind.additive {b b' : Baseline} (h : SameKind b b') : Additive b ∧ Additive b' := by
  rcases h with ⟨t, t', rfl, rfl⟩ | ⟨rfl, rfl⟩
  · exact ⟨Or.inl ⟨_, rfl⟩, Or.inl ⟨_, rfl⟩⟩
  · exact ⟨Or.inr rfl, Or.inr rfl⟩

theorem transform_sum (c : PCfg) (g : ι → ℤ → ℝ) (q : ℝ) : transform c (fun n => ∑ i, g i n) q = ∑ i, transform c (g i) q := by
  unfold transform
  rw [← Finset.mul_sum, Finset.sum_comm]
  simp only [Finset.sum_mul]

theorem fromWindow_sum (c : PCfg) (qmin qmax : ℝ) (F : ι → ℝ → ℝ) (r : ℝ) : fromWindow c qmin qmax (fun q => ∑ i, F i q) r = ∑ i, fromWindow c qmin qmax (F i) r := by
  unfold fromWindow
  rw [← Finset.mul_sum, Finset.sum_comm]
  congr 1
  refine Finset.sum_congr rfl fun k _ => ?_
  split
  · rw [Finset.sum_mul]
  · rw [Finset.sum_const_zero]

/-- G(r) and F(Q) are linear in what is transformed. -/
theorem output_parts {c : PCfg} {qmin qmax : ℝ} {g : ℤ → ℝ} {gs : ι → ℤ → ℝ} {G : (ℝ → ℝ) → Option (List ℝ)} {F : Option (List ℝ)}
    {Gs : ι → (ℝ → ℝ) → Option (List ℝ)} {Fs : ι → Option (List ℝ)} {z : Prop} {zs : ι → Prop} (hz : z) (hzs : ∀ q, zs q)
    (h : Output c qmin qmax g z G F) (hs : ∀ q, Output c qmin qmax (gs q) (zs q) (Gs q) (Fs q)) (hg : ∀ n, g n = ∑ q, gs q n) :
    (∃ (l : List ℝ) (ls : ι → List ℝ), F = some l ∧ (∀ q, Fs q = some (ls q)) ∧ Adds l ls) ∧
    (qmax < Real.pi / c.par.dr - 1 / 2 ^ 26 ∨ Real.pi / c.par.dr ≤ qmax → ∀ env : ℝ → ℝ, ∃ (l : List ℝ) (ls : ι → List ℝ), G env = some l ∧ (∀ q, Gs q env = some (ls q)) ∧ Adds l ls) := by
  have hg' : g = fun n => ∑ q, gs q n := funext hg
  constructor
  · obtain ⟨l, e, l1, l2⟩ := h.f
    choose ls es ls1 ls2 using fun q => (hs q).f
    have hlen : ∀ q, (ls q).length = l.length := by
      intro q
      refine le_antisymm (not_lt.1 fun hn => ?_) (not_lt.1 fun hn => ?_)
      · exact absurd ((l1 _).2 ((ls1 q _).1 hn)) (lt_irrefl _)
      · exact absurd ((ls1 q _).2 ((l1 _).1 hn)) (lt_irrefl _)
    refine ⟨l, ls, e, es, hlen, fun m hm => ?_⟩
    rw [l2 m hm, hg', transform_sum]
    refine congrArg some (Finset.sum_congr rfl fun q _ => ?_)
    rw [List.getD_eq_getElem?_getD, ls2 q m ((hlen q).symm ▸ hm)]
    rfl
  · intro hq env
    obtain ⟨l, e, l1, l2⟩ := h.pdf hq env
    choose ls es ls1 ls2 using fun q => (hs q).pdf hq env
    refine ⟨l, ls, e, es, fun q => (ls1 q).trans l1.symm, fun m hm => ?_⟩
    have hg : ∃ n : ℤ, (rgrid c.par.rmin c.par.rmax c.par.dr)[m]? = some ((n : ℝ) * c.par.dr) := by
      have hm : m < (rgrid c.par.rmin c.par.rmax c.par.dr).length := l1 ▸ hm
      have hmem : (rgrid c.par.rmin c.par.rmax c.par.dr)[m] ∈ rgrid c.par.rmin c.par.rmax c.par.dr := List.getElem_mem hm
      unfold rgrid at hmem
      obtain ⟨n, -, hn⟩ := List.mem_map.1 hmem
      refine ⟨n, ?_⟩
      rw [List.getElem?_eq_getElem hm, hn]
      rfl
    obtain ⟨n, hn⟩ := hg
    rw [l2 m n hn fun _ => hz, hg', show transform c (fun n => ∑ q, gs q n) = fun r => ∑ q, transform c (gs q) r from funext (transform_sum c gs),
      fromWindow_sum, Finset.sum_mul]
    refine congrArg some (Finset.sum_congr rfl fun q _ => ?_)
    rw [List.getD_eq_getElem?_getD, ls2 q m n hn fun _ => hzs q]
    rfl

variable {C S : Type}

/-- **C98** for the RDF. A calculator and others whose masks divide its pairs, each after any history, with configurations that are equal apart from the masks,
evaluate the same structure: the RDFs of the others add up to that of the first, at the grid points of C86. -/
theorem rdf_parts (s : Sorter) (hs : SortSpec s) (conf : C → PCfg) (stru : S → RStru) (k : Cls C S) (hk : IsPDFCalculator s conf stru k)
    (hr : Regular conf stru k) (c : C) (e : S) (ops : List (POp C S)) (ha : Proper (Quiet conf k) k (pcInit k c e 0 1) ops)
    (ht : taintAfter k.control (pcInit k c e 0 1).h false (ops.map POp.op) = false)
    (cs : ι → C) (es : ι → S) (opss : ι → List (POp C S)) (has : ∀ q, Proper (Quiet conf k) k (pcInit k (cs q) (es q) 0 1) (opss q))
    (hts : ∀ q, taintAfter k.control (pcInit k (cs q) (es q) 0 1).h false ((opss q).map POp.op) = false) (x : S)
    (part : ι → ℕ → ℕ → Option Atom → Option Atom → Bool) :
    let r := pcEval k (pcRun k (pcInit k c e 0 1) ops) x
    let rs := fun q => pcEval k (pcRun k (pcInit k (cs q) (es q) 0 1) (opss q)) x
    let cf := conf r.h.cfg
    (∀ q, conf (rs q).h.cfg = { cf with mask := part q }) → (∀ q, k.tails (rs q).h.cfg x = k.tails r.h.cfg x) → MasksDivide cf.mask part (stru x) →
    ∃ (z : List ℝ) (zs : ι → List ℝ), getRDF k r = some z ∧ (∀ q, getRDF k (rs q) = some (zs q)) ∧
      z.length = (rgrid cf.par.rmin cf.par.rmax cf.par.dr).length ∧ (∀ q, (zs q).length = z.length) ∧
      ∀ (m : ℕ) (n : ℤ), (rgrid cf.par.rmin cf.par.rmax cf.par.dr)[m]? = some ((n : ℝ) * cf.par.dr) → Seen cf n → z[m]? = some (∑ q, (zs q).getD m 0) := by
  intro r rs cf hcf htl hd
  obtain ⟨z, z1, z2, z3⟩ := rdf_history s hs conf stru k hk hr c e ops ha ht x
  choose zs zs1 zs2 zs3 using fun q => rdf_history s hs conf stru k hk hr (cs q) (es q) (opss q) (has q) (hts q) x
  refine ⟨z, zs, z1, zs1, z2, fun q => ?_, fun m n hm hn => ?_⟩
  · have h2 : (zs q).length = (rgrid (conf (rs q).h.cfg).par.rmin (conf (rs q).h.cfg).par.rmax (conf (rs q).h.cfg).par.dr).length := zs2 q
    rw [hcf] at h2
    exact h2.trans z2.symm
  · rw [z3 m n hm hn]
    change some (struRDF cf (stru x) (counted cf (k.tails r.h.cfg x) (drawn cf.prof cf.par.dr n))) = _
    rw [struRDF_parts cf part (stru x) hd]
    refine congrArg some (Finset.sum_congr rfl fun q _ => ?_)
    have h3 : (rgrid (conf (rs q).h.cfg).par.rmin (conf (rs q).h.cfg).par.rmax (conf (rs q).h.cfg).par.dr)[m]? = some ((n : ℝ) * (conf (rs q).h.cfg).par.dr) →
      Seen (conf (rs q).h.cfg) n → (zs q)[m]? = some (struRDF (conf (rs q).h.cfg) (stru x)
        (counted (conf (rs q).h.cfg) (k.tails (rs q).h.cfg x) (drawn (conf (rs q).h.cfg).prof (conf (rs q).h.cfg).par.dr n))) := zs3 q m n
    rw [hcf, htl] at h3
    rw [List.getD_eq_getElem?_getD, h3 hm hn]
    rfl

/-- **C98** for G(r) and F(Q) with the cropped profile, and linear baselines or none. -/
theorem pdf_parts (s : Sorter) (hs : SortSpec s) (conf : C → PCfg) (stru : S → RStru) (k : Cls C S) (hk : IsPDFCalculator s conf stru k)
    (hr : Regular conf stru k) (m : C → S → Mask.State) (hm : Masked conf stru k m) (c : C) (e : S)
    (b : Baseline) (ops : List (OOp C S)) (ha : Proper (Quiet conf k) k (pcInit k c e 0 1) (calls ops))
    (ht : taintAfter k.control (pcInit k c e 0 1).h false ((calls ops).map POp.op) = false)
    (cs : ι → C) (es : ι → S) (bs : ι → Baseline) (opss : ι → List (OOp C S)) (has : ∀ q, Proper (Quiet conf k) k (pcInit k (cs q) (es q) 0 1) (calls (opss q)))
    (hts : ∀ q, taintAfter k.control (pcInit k (cs q) (es q) 0 1).h false ((calls (opss q)).map POp.op) = false) (x : S) (hpos : 0 < atoms (sitesOf (stru x)))
    (qmin qmax : ℝ) (hq : Fft.QOk qmin qmax) (part : ι → ℕ → ℕ → Option Atom → Option Atom → Bool) :
    let density := fun x => densityOf (geom (stru x)).mult (stru x)
    let r := ocEval k density (ocRun k density (ocInit k density c e b 0 1) ops) x
    let rs := fun q => ocEval k density (ocRun k density (ocInit k density (cs q) (es q) (bs q) 0 1) (opss q)) x
    let cf := conf r.pc.h.cfg
    let t := k.tails r.pc.h.cfg x
    (∀ q, conf (rs q).pc.h.cfg = { cf with mask := part q }) → (∀ q, k.tails (rs q).pc.h.cfg x = t) → MasksDivide cf.mask part (stru x) →
    Additive (lastBase b ops) → (∀ q, SameKind (lastBase b ops) (lastBase (bs q) (opss q))) →
    rgrid cf.par.rmin cf.par.rmax cf.par.dr ≠ [] → 1 / 2 ^ 26 < qStep (cf.given t) → cf.par.rmin ≤ cf.ripples → Cropped cf.prof →
    (∃ (F : List ℝ) (Fs : ι → List ℝ), getF k r qmax = some F ∧ (∀ q, getF k (rs q) qmax = some (Fs q)) ∧ Adds F Fs) ∧
    (qmax < Real.pi / cf.par.dr - 1 / 2 ^ 26 ∨ Real.pi / cf.par.dr ≤ qmax → ∀ env : ℝ → ℝ,
      ∃ (G : List ℝ) (Gs : ι → List ℝ), getPDF k r qmin qmax env = some G ∧ (∀ q, getPDF k (rs q) qmin qmax env = some (Gs q)) ∧ Adds G Gs) := by
  intro density r rs cf t hcf htl hd hb hbs hne hres hlo hcr
  have h1 : Output (cf.given t) qmin qmax (fun n => struRDF cf (stru x) (counted cf t fun w v => pairTerm cf.prof.y 1 w v ((n : ℝ) * cf.par.dr)) / ((n : ℝ) * cf.par.dr) +
        baseOf cf (stru x) (lastBase b ops) ((n : ℝ) * cf.par.dr))
      (baseOf cf (stru x) (lastBase b ops) 0 = 0) (getPDF k r qmin qmax) (getF k r qmax) :=
    pdf_history_whole s hs conf stru k hk hr m hm c e b ops ha ht x hpos qmin qmax hq hne hres hlo hcr
  have h2 : ∀ q, Output (cf.given t) qmin qmax (fun n => struRDF { cf with mask := part q } (stru x)
      (counted cf t fun w v => pairTerm cf.prof.y 1 w v ((n : ℝ) * cf.par.dr)) / ((n : ℝ) * cf.par.dr) +
        baseOf { cf with mask := part q } (stru x) (lastBase (bs q) (opss q)) ((n : ℝ) * cf.par.dr))
      (baseOf { cf with mask := part q } (stru x) (lastBase (bs q) (opss q)) 0 = 0) (getPDF k (rs q) qmin qmax) (getF k (rs q) qmax) := by
    intro q
    have h := pdf_history_whole s hs conf stru k hk hr m hm (cs q) (es q) (bs q) (opss q) (has q) (hts q) x hpos qmin qmax hq
    have hcf : conf (ocEval k density (ocRun k density (ocInit k density (cs q) (es q) (bs q) 0 1) (opss q)) x).pc.h.cfg = { cf with mask := part q } := hcf q
    have htl : k.tails (ocEval k density (ocRun k density (ocInit k density (cs q) (es q) (bs q) 0 1) (opss q)) x).pc.h.cfg x = t := htl q
    dsimp only at h
    rw [hcf, htl] at h
    have h := h hne hres hlo hcr
    exact ⟨h.pdf, h.f⟩
  have h := output_parts (c := cf.given t) (additive_zero cf (stru x) _ hb)
    (fun q => additive_zero { cf with mask := part q } (stru x) _ (hbs q).additive.2) h1 h2 fun n => by
      rw [struRDF_parts cf part (stru x) hd, base_parts cf part (stru x) hd _ _ hbs hb, Finset.sum_div, ← Finset.sum_add_distrib]
  exact ⟨h.1, h.2⟩

end Verif.PDFHist
