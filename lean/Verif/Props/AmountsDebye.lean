import Verif.Props.Amounts
import Verif.Props.SameDebye
/-! C99: the F(Q) of a DebyePDFCalculator depends on the total occupancy of every sort of atom only. -/
set_option linter.unusedSectionVars false
namespace Verif.DebyeHist
open Verif.Eval Verif.Diff Verif.KindDiff Verif.History Verif.Debye Verif.Setters Verif.R3 Verif.Lattice Verif.Geo
open Verif.PDFHist (POp sitesOf Displaced pairWidth SameAmounts TypeMask bare pair_amounts mult_atom sum_atom atoms_amounts fAverage_amounts)
open scoped BigOperators

variable {x x' : RStru}

/-- The Debye sum is the same. -/
theorem struSum_amounts (cf : DLCfg) (h : SameAmounts x x') (hm : TypeMask cf.mask) (lo hi q : ℝ) :
    struSum (geom x') lo hi (siteFactor cf.lookup (sitesOf x') q) (fun i j => pairWidth cf.pwm x'.atoms[i]? x'.atoms[j]?)
      (fun i j => cf.mask i j x'.atoms[i]? x'.atoms[j]?) q =
    struSum (geom x) lo hi (siteFactor cf.lookup (sitesOf x) q) (fun i j => pairWidth cf.pwm x.atoms[i]? x.atoms[j]?)
      (fun i j => cf.mask i j x.atoms[i]? x.atoms[j]?) q := by
  obtain ⟨μ, hμ⟩ := hm
  unfold struSum
  simp only [geom_cnt]
  refine pair_amounts h (fun a b => if μ a.atomtype b.atomtype = true then ((geom ⟨x.kind, [bare a]⟩).mult 0 : ℝ) *
    (cf.lookup a.atomtype q * cf.lookup b.atomtype q *
      (geom ⟨x.kind, [bare a, bare b]⟩).sum 0 1 (Geo.cut lo hi fun v => wave (pairWidth cf.pwm (some a) (some b) v) q v)) else 0)
    (fun _ _ => rfl) (fun _ _ => rfl) (fun y i j => if cf.mask i j y.atoms[i]? y.atoms[j]? = true then ((geom y).mult i : ℝ) *
      (siteFactor cf.lookup (sitesOf y) q i * siteFactor cf.lookup (sitesOf y) q j *
        (geom y).sum i j (Geo.cut lo hi fun v => wave (pairWidth cf.pwm y.atoms[i]? y.atoms[j]? v) q v)) else 0) fun y hy i j a b ha hb => ?_
  have hk : y.kind = x.kind := by
    rcases List.mem_cons.1 hy with rfl | hy
    · rfl
    · rw [List.mem_singleton.1 hy]; exact h.1
  rw [siteFactor_eq, siteFactor_eq, mult_atom y i a ha, sum_atom y i j a b ha hb, hk, ha, hb, hμ i j a b]
  simp only [Option.map_some, Option.getD_some]
  split
  · ring
  · ring

variable {C S : Type}

/-- Atoms with the same displacements give the same extension of the range for the peak tails. -/
theorem debye_tails_sorts (cf : DLCfg) (h1 : ∀ a ∈ x'.atoms, ∃ b ∈ x.atoms, b.u = a.u) (h2 : ∀ a ∈ x.atoms, ∃ b ∈ x'.atoms, b.u = a.u) :
    cf.tails x' = cf.tails x := by
  funext a b
  unfold DLCfg.tails
  congr 1
  unfold PDFHist.PWM.maxWidth
  have hu := PDFHist.maxUii_tensors h1 h2
  cases cf.pwm with
  | constant c => rfl
  | debyeWaller => dsimp only; unfold Peak.dwMaxWidth; rw [hu]
  | jeong j => dsimp only; unfold Peak.Jeong.maxWidth Peak.dwMaxWidth; rw [hu]

/-- **C99** for the Debye sum, when the atoms of one type have one occupancy in each of the two structures (`UsualDebye`; C44). Two calculators, each
after any history, that have equal parameters and a mask by types, evaluate two structures with the same amounts of every sort of atom: the F(Q) agree
up to the precision to which each of them is computed (C91). -/
theorem debye_amounts_partial (s : Sorter) (hs : SortSpec s) (conf : C → DLCfg) (stru : S → RStru) (k : Cls C S) (hk : IsLibraryDebye s conf stru k)
    (hu : UsualDebye conf stru k) (c c' : C) (e e' : S) (ops ops' : List (POp C S)) (ha : Called conf k (dcInit k c e 0 1) ops)
    (ha' : Called conf k (dcInit k c' e' 0 1) ops') (y y' : S) (ht : strayed conf k (dcInit k c e 0 1) (ops ++ [.eval y]) = false)
    (ht' : strayed conf k (dcInit k c' e' 0 1) (ops' ++ [.eval y']) = false) :
    let r := dcEval k (dcRun k (dcInit k c e 0 1) ops) y
    let r' := dcEval k (dcRun k (dcInit k c' e' 0 1) ops') y'
    let cf := conf r.h.cfg
    let a := sitesOf (stru y)
    conf r'.h.cfg = cf → SameAmounts (stru y) (stru y') → TypeMask cf.mask →
    (∀ t (q q' : ℝ), 0 ≤ q → q ≤ q' → |cf.lookup t q'| ≤ |cf.lookup t q|) → 1 / 2 ^ 26 < atomCount a → 0 ≤ cf.d.q.prec →
    ∃ F F', getF k r = some F ∧ getF k r' = some F' ∧ F'.length = F.length ∧ ∀ m < F.length,
      let q := (m : ℝ) * cf.d.q.qstep
      let n := atomCount a * meanFactor cf.lookup a q ^ 2
      let bonds := fun z : S => (bondCount (geom (stru z)) cf.d.rcalclo cf.d.rcalchi (fun i j => cf.mask i j (stru z).atoms[i]? (stru z).atoms[j]?) : ℝ)
      ∃ v v', F[m]? = some v ∧ F'[m]? = some v' ∧ (meanFactor cf.lookup a q = 0 → v' = v) ∧ (meanFactor cf.lookup a q ≠ 0 →
        |v' - v| ≤ cf.d.q.prec * (bonds y + bonds y') / n) := by
  intro r r' cf a hcf h hm hmono hat hprec
  have h1 := library_F_partial s hs conf stru k hk hu c e ops ha y ht hmono hat hprec
  have h2 := library_F_partial s hs conf stru k hk hu c' e' ops' ha' y' ht'
  have hcf : conf (dcEval k (dcRun k (dcInit k c' e' 0 1) ops') y').h.cfg = cf := hcf
  have e1 : atomCount (sitesOf (stru y')) = atomCount (sitesOf (stru y)) := atoms_amounts h
  have e2 : ∀ q, meanFactor cf.lookup (sitesOf (stru y')) q = meanFactor cf.lookup (sitesOf (stru y)) q :=
    fun q => fAverage_amounts h fun t => cf.lookup t q
  dsimp only at h2
  rw [hcf, e1] at h2
  obtain ⟨F, f1, f2, f3⟩ := h1
  obtain ⟨F', g1, g2, g3⟩ := h2 hmono hat hprec
  have hlen : F'.length = F.length := g2.trans f2.symm
  refine ⟨F, F', f1, g1, hlen, fun m hmF => ?_⟩
  obtain ⟨v, v1, v2, v3⟩ := f3 m hmF
  obtain ⟨v', w1, w2, w3⟩ := g3 m (by rw [hlen]; exact hmF)
  rw [e2] at w2 w3
  refine ⟨v, v', v1, w1, fun h0 => ?_, fun h0 => ?_⟩
  · rw [v2 h0, w2 h0]
  · have a1 := v3 h0
    have a2 := w3 h0
    rw [struSum_amounts cf h hm] at a2
    dsimp only at a1 a2 ⊢
    set n := atomCount a * meanFactor cf.lookup a ((m : ℝ) * cf.d.q.qstep) ^ 2 with hn
    have key := abs_sub_le v' (struSum (geom (stru y)) cf.d.rcalclo cf.d.rcalchi (siteFactor cf.lookup (sitesOf (stru y)) ((m : ℝ) * cf.d.q.qstep))
            (fun i j => pairWidth cf.pwm (stru y).atoms[i]? (stru y).atoms[j]?) (fun i j => cf.mask i j (stru y).atoms[i]? (stru y).atoms[j]?)
            ((m : ℝ) * cf.d.q.qstep) / n) v
    rw [abs_sub_comm v] at a1
    refine (key.trans (add_le_add a2 a1)).trans (le_of_eq ?_)
    rw [mul_add, add_div, add_comm]

/-! ### A concrete case -/

open Verif.PDFHist (exIso exFew exIso_aligned amount)

/-- The two atoms of `exFew`, one of them in two halves, in another order. -/
def exHalves : RStru := ⟨.atomic, [exIso "B" 2 (1 / 2), exIso "A" 0 1, exIso "B" 2 (1 / 2)]⟩

theorem exHalves_amounts : SameAmounts exFew exHalves := by
  refine ⟨rfl, fun s => ?_⟩
  have hA : ∀ o, bare (exIso "A" 0 o) = exIso "A" 0 0 := fun _ => rfl
  have hB : ∀ o, bare (exIso "B" 2 o) = exIso "B" 2 0 := fun _ => rfl
  unfold amount exFew exHalves
  dsimp only
  generalize bare s = t
  simp only [List.filter_cons, List.filter_nil, hA, hB, decide_eq_true_eq]
  by_cases h1 : exIso "A" 0 0 = t
  · subst h1
    have hne : ¬ exIso "B" 2 0 = exIso "A" 0 0 := by decide
    simp only [hne, if_false, if_true]
  · rw [if_neg h1, if_neg h1]
    by_cases h2 : exIso "B" 2 0 = t
    · rw [if_pos h2, if_pos h2, if_pos h2]
      show (1 / 2 : ℚ) + (1 / 2 + 0) = 1 + 0
      norm_num
    · rw [if_neg h2, if_neg h2, if_neg h2]

/-- New calculators give the same F(Q) for both with precision 0. -/
example (s : Sorter) (hs : SortSpec s) (c : {d : D // ExRange d} × Bool) (hp : c.1.1.q.prec = 0) : ∃ k : Cls ({d : D // ExRange d} × Bool) Bool,
    IsLibraryDebye s exDebye (fun b => if b then exHalves else exFew) k ∧
    ∃ F, getF k (dcEval k (dcInit k c false 0 1) false) = some F ∧ getF k (dcEval k (dcInit k c true 0 1) true) = some F := by
  let stru : Bool → RStru := fun b => if b then exHalves else exFew
  have hx : ∀ b, PDFHist.ExStru (· = .atomic) (stru b) := by
    have iso : ∀ t p o, (exIso t p o).anisotropy = false ∧ 0 < (exIso t p o).u.u1 := fun _ _ _ => ⟨rfl, by norm_num [exIso]⟩
    intro b
    cases b
    · exact PDFHist.exFew_stru.1
    · refine ⟨rfl, trivial, fun a ha => ?_, fun a ha => ?_⟩ <;>
        (simp only [stru, if_true, exHalves, List.mem_cons, List.not_mem_nil, or_false] at ha)
      · rcases ha with rfl | rfl | rfl <;> exact exIso_aligned _ _ _
      · rcases ha with rfl | rfl | rfl <;> exact iso _ _ _
  have ht : ∀ c (b : Bool) u v, 0 ≤ (exDebye c).tails (stru b) u v := fun c b u v => tails_nonneg _ _ _ _
  obtain ⟨k, hk, -, -⟩ := library_debye_exists s exDebye stru (fun _ => false)
    (fun x c => ((⟨(exRange_reset ((exDebye c).tails (stru x)) (ht c x) c.1.1 c.1.2).choose,
      (exRange_reset ((exDebye c).tails (stru x)) (ht c x) c.1.1 c.1.2).choose_spec.2⟩, c.2),
      decide ((exRange_reset ((exDebye c).tails (stru x)) (ht c x) c.1.1 c.1.2).choose.clicks ≠ c.1.1.clicks)))
    (fun x c h => Prod.ext (Subtype.ext (congrArg DLCfg.d h)) rfl)
    (fun x c => ⟨_, (exRange_reset ((exDebye c).tails (stru x)) (ht c x) c.1.1 c.1.2).choose_spec.1, rfl, rfl⟩)
  have hocc : ∀ b, UniformOccupancy (sitesOf (stru b)) := by
    intro b
    cases b
    · have hs : ∀ p ∈ sitesOf exFew, p.occ = 1 := by
        intro p hp
        simp only [sitesOf, exFew, List.zipIdx, List.map, List.mem_cons, List.not_mem_nil, or_false] at hp
        rcases hp with rfl | rfl <;> norm_num [exIso]
      exact fun p hp q hq _ => (hs p hp).trans (hs q hq).symm
    · have hs : ∀ p ∈ sitesOf exHalves, (p.typ = "A" ∧ p.occ = 1) ∨ (p.typ = "B" ∧ p.occ = 1 / 2) := by
        intro p hp
        simp only [sitesOf, exHalves, List.zipIdx, List.map, List.mem_cons, List.not_mem_nil, or_false] at hp
        rcases hp with rfl | rfl | rfl <;> norm_num [exIso]
      intro p hp q hq e
      rcases hs p hp with ⟨a, a'⟩ | ⟨a, a'⟩ <;> rcases hs q hq with ⟨b, b'⟩ | ⟨b, b'⟩
      · rw [a', b']
      · rw [a, b] at e
        exact absurd e (by decide)
      · rw [a, b] at e
        exact absurd e (by decide)
      · rw [a', b']
  have hu : UsualDebye exDebye stru k := by
    refine ⟨fun x y _ => ?_, fun x => (hx x).2.1, hocc, fun c => c.1.2.good, fun _ => trivial,
      fun x => (hx x).2.2.1, fun c x => Or.inr ?_, fun _ _ _ _ _ => rfl, fun _ _ _ _ _ _ _ _ => rfl, fun c => c.1.2.optimum, fun c => ?_,
      fun c => c.1.2.wide⟩
    · cases x <;> cases y <;> trivial
    · cases x <;> exact fun _ _ _ _ => rfl
    · show c.1.1.rmin ≤ _ ∧ c.1.1.rmin ≤ _
      rw [c.1.2.rmin]
      exact ⟨c.1.2.good.maxext, ripples_nonneg _⟩
  have hcfg : exDebye (dcEval k (dcInit k c true 0 1) true).h.cfg = exDebye (dcEval k (dcInit k c false 0 1) false).h.cfg := by
    rw [first_cfg, first_cfg, hk.custom]
    obtain ⟨d, d1, d2, -⟩ := hk.reset false c
    obtain ⟨d', d1', d2', -⟩ := hk.reset true c
    have e : (exDebye c).tails (stru true) = (exDebye c).tails (stru false) := by
      have e : ∀ t p o t' p' o', (exIso t p o).u = (exIso t' p' o').u := fun _ _ _ _ _ _ => rfl
      refine debye_tails_sorts _ (fun a ha => ⟨exIso "A" 0 1, by simp [stru, exFew], ?_⟩) (fun a ha => ⟨exIso "A" 0 1, by simp [stru, exHalves], ?_⟩)
      · simp only [stru, if_true, exHalves, List.mem_cons, List.not_mem_nil, or_false] at ha
        rcases ha with rfl | rfl | rfl <;> exact e _ _ _ _ _ _
      · have ha : a ∈ exFew.atoms := ha
        simp only [exFew, List.mem_cons, List.not_mem_nil, or_false] at ha
        rcases ha with rfl | rfl <;> exact e _ _ _ _ _ _
    rw [e, d1] at d1'
    rw [d2, d2', Except.ok.inj d1']
  have hprec : (exDebye (dcEval k (dcInit k c false 0 1) false).h.cfg).d.q.prec = c.1.1.q.prec := by
    rw [first_cfg, hk.custom]
    obtain ⟨d, d1, d2, -⟩ := hk.reset false c
    rw [d2]
    obtain ⟨-, -, -, -, -, h6, -⟩ := reset_parts _ _ _ d1
    show d.q.prec = _
    rw [h6]
    rfl
  have hat : atomCount (sitesOf (stru false)) = 2 := by
    show atomCount (sitesOf exFew) = _
    have e : ∀ k, (geom exFew).mult k = 1 := fun _ => rfl
    have e' : sitesOf exFew = [⟨"A", ((1 : ℚ) : ℝ), (geom exFew).mult 0⟩, ⟨"B", ((1 : ℚ) : ℝ), (geom exFew).mult 1⟩] := rfl
    rw [e', e, e]
    norm_num [atomCount]
  obtain ⟨F, F', a1, a2, a3, a4⟩ := debye_amounts_partial s hs exDebye stru k hk hu c c false true [] []
    (fun pre f cl r post e => by simp at e) (fun pre f cl r post e => by simp at e) false true rfl rfl hcfg exHalves_amounts ⟨fun _ _ => true, fun _ _ _ _ => rfl⟩
    (fun _ _ _ _ _ => le_refl _) (by rw [hat]; norm_num) (hprec.trans hp).ge
  refine ⟨k, hk, F, a1, ?_⟩
  have : F' = F := by
    refine List.ext_getElem a3 fun m hm' hm => ?_
    obtain ⟨v, v', b1, b2, b3, b4⟩ := a4 m hm
    rw [List.getElem?_eq_getElem hm] at b1
    rw [List.getElem?_eq_getElem hm'] at b2
    rw [Option.some.inj b1, Option.some.inj b2]
    by_cases h0 : meanFactor (exDebye (dcEval k (dcInit k c false 0 1) false).h.cfg).lookup (sitesOf (stru false))
        ((m : ℝ) * (exDebye (dcEval k (dcInit k c false 0 1) false).h.cfg).d.q.qstep) = 0
    · exact b3 h0
    · have h := b4 h0
      have hz : (exDebye (dcEval k (dcRun k (dcInit k c false 0 1) []) false).h.cfg).d.q.prec = 0 := hprec.trans hp
      rw [hz, zero_mul, zero_div] at h
      exact sub_eq_zero.1 (abs_nonpos_iff.1 h)
  rw [← this]
  exact a2

end Verif.DebyeHist
