import Verif.Props.SameExample
import Verif.Props.DebyeModels
/-! C97: the F(Q) of a DebyePDFCalculator does not depend on how a structure is described. -/
set_option linter.unusedSectionVars false
namespace Verif.DebyeHist
open Verif.Eval Verif.Diff Verif.KindDiff Verif.History Verif.Debye Verif.Setters Verif.R3 Verif.Lattice Verif.Geo
open Verif.PDFHist (POp sitesOf Displaced pairWidth SameDisplacements SameMask same_geo_total atoms_same fAverage_same)
open scoped BigOperators

variable {x x' : RStru} {σ : ℕ → ℕ} {ρ : V3 → V3} {N : ℝ}

theorem siteFactor_eq (lookup : String → ℝ → ℝ) (y : RStru) (q : ℝ) (i : ℕ) :
    siteFactor lookup (sitesOf y) q i = (y.atoms[i]?.map fun a => lookup a.atomtype q * (a.occupancy : ℝ)).getD 0 := by
  unfold siteFactor
  rw [sites_get]
  cases y.atoms[i]? <;> rfl

/-- The Debye sum grows with the number of atoms in the cell. -/
theorem struSum_same (cf : DLCfg) (h : SameStructure x x' σ ρ) (hN : Cells x x' σ N) (hok : (geom x).Ok) (hok' : (geom x').Ok)
    (hx : Displaced x) (hx' : Displaced x') (hd : SameDisplacements x x' σ ρ) (hm : SameMask cf.mask x x' σ) (lo hi q : ℝ) :
    struSum (geom x') lo hi (siteFactor cf.lookup (sitesOf x') q) (fun i j => pairWidth cf.pwm x'.atoms[i]? x'.atoms[j]?)
      (fun i j => cf.mask i j x'.atoms[i]? x'.atoms[j]?) q =
    N * struSum (geom x) lo hi (siteFactor cf.lookup (sitesOf x) q) (fun i j => pairWidth cf.pwm x.atoms[i]? x.atoms[j]?)
      (fun i j => cf.mask i j x.atoms[i]? x.atoms[j]?) q := by
  unfold struSum
  simp only [geom_cnt]
  have pull : ∀ (y : RStru) (m : ℕ → ℕ → Bool) (f : ℕ → ℝ) (g : ℕ → ℕ → ℝ),
      (∑ i ∈ Finset.range y.atoms.length, ∑ j ∈ Finset.range y.atoms.length, if m i j = true then ((geom y).mult i : ℝ) * (f i * f j * g i j) else 0) =
      ∑ i ∈ Finset.range y.atoms.length, ((geom y).mult i : ℝ) * ∑ j ∈ Finset.range y.atoms.length, if m i j = true then f i * f j * g i j else 0 := by
    intro y m f g
    refine Finset.sum_congr rfl fun i _ => ?_
    rw [Finset.mul_sum]
    exact Finset.sum_congr rfl fun j _ => by rw [mul_ite, mul_zero]
  rw [pull, pull]
  refine same_geo_total h hN _ _ fun i hi' => ?_
  have hf : ∀ k < x'.atoms.length, siteFactor cf.lookup (sitesOf x') q k = siteFactor cf.lookup (sitesOf x) q (σ k) := by
    intro k hk
    rw [siteFactor_eq, siteFactor_eq, List.getElem?_eq_getElem hk, List.getElem?_eq_getElem (h.lt hk)]
    simp [(h.get hk).1, (h.get hk).2]
  have st := same_terms_vec h.geo hok hok' lo hi (fun i j v => wave (pairWidth cf.pwm x.atoms[i]? x.atoms[j]? v) q v)
    (fun i j v => wave (pairWidth cf.pwm x'.atoms[i]? x'.atoms[j]? v) q v)
    (fun i j => cf.mask i j x.atoms[i]? x.atoms[j]?) (fun i j => cf.mask i j x'.atoms[i]? x'.atoms[j]?)
    (fun i j => siteFactor cf.lookup (sitesOf x) q i * siteFactor cf.lookup (sitesOf x) q j)
    (fun i j => siteFactor cf.lookup (sitesOf x') q i * siteFactor cf.lookup (sitesOf x') q j)
    (by rw [geom_cnt]; exact hm) (by
      rw [geom_cnt]
      intro i hi k hk
      rw [hf i hi, hf k hk]) (by
      rw [geom_cnt]
      intro i hi k hk v _
      rw [PDFHist.width_same cf.pwm hd i k hi hk v]) (fun i _ j _ => PDFHist.fits_width cf.pwm h hok hok' hx hx' hd (fun u v => wave u q v) (fun u v v' hv => by
        unfold wave
        rw [hv]) i j) i (by rw [geom_cnt]; exact hi')
  rw [geom_cnt, geom_cnt] at st
  exact st

variable {C S : Type}

theorem debye_tails_same (cf : DLCfg) (h : SameStructure x x' σ ρ) (hok : (geom x).Ok) (hd : SameDisplacements x x' σ ρ) : cf.tails x' = cf.tails x := by
  funext a b
  unfold DLCfg.tails
  congr 1
  unfold PDFHist.PWM.maxWidth
  have hu := PDFHist.maxUii_same h hok hd
  cases cf.pwm with
  | constant c => rfl
  | debyeWaller => dsimp only; unfold Peak.dwMaxWidth; rw [hu]
  | jeong j => dsimp only; unfold Peak.Jeong.maxWidth Peak.dwMaxWidth; rw [hu]

/-- The update of the parameters for the structure leads to equal parameters for two descriptions. -/
theorem reset_same {s : Sorter} {conf : C → DLCfg} {stru : S → RStru} {k : Cls C S} (hk : IsLibraryDebye s conf stru k) (c c' : C) (hc : conf c' = conf c)
    (y y' : S) (h : SameStructure (stru y) (stru y') σ ρ) (hok : (geom (stru y)).Ok) (hd : SameDisplacements (stru y) (stru y') σ ρ) :
    conf (k.reset y' c').1 = conf (k.reset y c).1 := by
  obtain ⟨d, d1, d2, -⟩ := hk.reset y c
  obtain ⟨d', d1', d2', -⟩ := hk.reset y' c'
  rw [hc, debye_tails_same _ h hok hd, d1] at d1'
  rw [d2, d2', hc, Except.ok.inj d1']

/-- **C97** for the Debye sum. Two calculators, each after any history, that have equal parameters, evaluate two descriptions of the same
atoms: the F(Q) agree up to the precision to which each of them is computed (C91). -/
theorem debye_redescribed_partial (s : Sorter) (hs : SortSpec s) (conf : C → DLCfg) (stru : S → RStru) (k : Cls C S) (hk : IsLibraryDebye s conf stru k)
    (hu : UsualDebye conf stru k) (c c' : C) (e e' : S) (ops ops' : List (POp C S)) (ha : Called conf k (dcInit k c e 0 1) ops)
    (ha' : Called conf k (dcInit k c' e' 0 1) ops') (y y' : S) (ht : strayed conf k (dcInit k c e 0 1) (ops ++ [.eval y]) = false)
    (ht' : strayed conf k (dcInit k c' e' 0 1) (ops' ++ [.eval y']) = false) :
    let r := dcEval k (dcRun k (dcInit k c e 0 1) ops) y
    let r' := dcEval k (dcRun k (dcInit k c' e' 0 1) ops') y'
    let cf := conf r.h.cfg
    let a := sitesOf (stru y)
    conf r'.h.cfg = cf → SameStructure (stru y) (stru y') σ ρ → Cells (stru y) (stru y') σ N → SameDisplacements (stru y) (stru y') σ ρ →
    SameMask cf.mask (stru y) (stru y') σ →
    (∀ t (q q' : ℝ), 0 ≤ q → q ≤ q' → |cf.lookup t q'| ≤ |cf.lookup t q|) → 1 / 2 ^ 26 < atomCount a → 1 / 2 ^ 26 < N * atomCount a → 0 ≤ cf.d.q.prec →
    ∃ F F', getF k r = some F ∧ getF k r' = some F' ∧ F'.length = F.length ∧ ∀ m < F.length,
      let q := (m : ℝ) * cf.d.q.qstep
      let n := atomCount a * meanFactor cf.lookup a q ^ 2
      let bonds := fun z : S => (bondCount (geom (stru z)) cf.d.rcalclo cf.d.rcalchi (fun i j => cf.mask i j (stru z).atoms[i]? (stru z).atoms[j]?) : ℝ)
      ∃ v v', F[m]? = some v ∧ F'[m]? = some v' ∧ (meanFactor cf.lookup a q = 0 → v' = v) ∧ (meanFactor cf.lookup a q ≠ 0 →
        |v' - v| ≤ cf.d.q.prec * (bonds y + bonds y' / N) / n) := by
  intro r r' cf a hcf h hN hd hm hmono hat hat' hprec
  have h1 := library_F_partial s hs conf stru k hk hu c e ops ha y ht hmono hat hprec
  have h2 := library_F_partial s hs conf stru k hk hu c' e' ops' ha' y' ht'
  have hcf : conf (dcEval k (dcRun k (dcInit k c' e' 0 1) ops') y').h.cfg = cf := hcf
  have e1 : atomCount (sitesOf (stru y')) = N * atomCount (sitesOf (stru y)) := atoms_same h hN
  have e2 : ∀ q, meanFactor cf.lookup (sitesOf (stru y')) q = meanFactor cf.lookup (sitesOf (stru y)) q :=
    fun q => fAverage_same h hN fun t => cf.lookup t q
  dsimp only at h2
  rw [hcf, e1] at h2
  obtain ⟨F, f1, f2, f3⟩ := h1
  obtain ⟨F', g1, g2, g3⟩ := h2 hmono hat' hprec
  have hlen : F'.length = F.length := g2.trans f2.symm
  refine ⟨F, F', f1, g1, hlen, fun m hmF => ?_⟩
  obtain ⟨v, v1, v2, v3⟩ := f3 m hmF
  obtain ⟨v', w1, w2, w3⟩ := g3 m (by rw [hlen]; exact hmF)
  rw [e2] at w2 w3
  refine ⟨v, v', v1, w1, fun h0 => ?_, fun h0 => ?_⟩
  · rw [v2 h0, w2 h0]
  · have a1 := v3 h0
    have a2 := w3 h0
    rw [struSum_same cf h hN (hu.geo y) (hu.geo y') (hu.disp y) (hu.disp y') hd hm] at a2
    have hNn : N * atomCount a * meanFactor cf.lookup a ((m : ℝ) * cf.d.q.qstep) ^ 2 =
        N * (atomCount a * meanFactor cf.lookup a ((m : ℝ) * cf.d.q.qstep) ^ 2) := by ring
    dsimp only at a1 ⊢
    rw [hNn, mul_div_mul_left _ _ hN.1.ne'] at a2
    set n := atomCount a * meanFactor cf.lookup a ((m : ℝ) * cf.d.q.qstep) ^ 2 with hn
    have key := abs_sub_le v' (struSum (geom (stru y)) cf.d.rcalclo cf.d.rcalchi (siteFactor cf.lookup (sitesOf (stru y)) ((m : ℝ) * cf.d.q.qstep))
            (fun i j => pairWidth cf.pwm (stru y).atoms[i]? (stru y).atoms[j]?) (fun i j => cf.mask i j (stru y).atoms[i]? (stru y).atoms[j]?)
            ((m : ℝ) * cf.d.q.qstep) / n) v
    rw [abs_sub_comm v] at a1
    refine (key.trans (add_le_add a2 a1)).trans (le_of_eq ?_)
    rw [mul_add, add_div, add_comm]
    congr 1
    rw [mul_div_assoc, mul_div_assoc, div_div]

/-- The parameters after the first evaluation of a new calculator. -/
theorem first_cfg (k : Cls C S) (c : C) (e y : S) : (dcEval k (dcInit k c e 0 1) y).h.cfg = (k.custom y c).1 := by
  show (evalSt k.control (dcInit k c e 0 1).h y).cfg = _
  rw [evalSt_eq]
  show (optFinal k.control y (dcInit k c e 0 1).h).cfg = _
  have hf : fastChoice k.control (dcInit k c e 0 1).h y = none := rfl
  unfold optFinal
  rw [hf]
  exact basicFinal_cfg k.control 0 1 y (dcInit k c e 0 1).h

/-- New calculators for the cell and its double: with precision 0 the F(Q) are equal. -/
example (s : Sorter) (hs : SortSpec s) (L0 : Lat) (c : {d : D // ExRange d} × Bool) (hp : c.1.1.q.prec = 0) : ∃ k : Cls ({d : D // ExRange d} × Bool) Bool,
    IsLibraryDebye s exDebye (fun b => if b then exDouble L0 else exCell L0) k ∧
    ∃ F, getF k (dcEval k (dcInit k c false 0 1) false) = some F ∧ getF k (dcEval k (dcInit k c true 0 1) true) = some F := by
  let stru : Bool → RStru := fun b => if b then exDouble L0 else exCell L0
  have hx : ∀ b, PDFHist.ExStru (fun k => ∃ L, k = .periodic L) (stru b) := by
    intro b
    cases b
    · exact (PDFHist.exCells_ok L0).1
    · exact (PDFHist.exCells_ok L0).2
  have ht : ∀ c (b : Bool) u v, 0 ≤ (exDebye c).tails (stru b) u v := fun c b u v => tails_nonneg _ _ _ _
  obtain ⟨k, hk, -, -⟩ := library_debye_exists s exDebye stru (fun _ => false)
    (fun x c => ((⟨(exRange_reset ((exDebye c).tails (stru x)) (ht c x) c.1.1 c.1.2).choose,
      (exRange_reset ((exDebye c).tails (stru x)) (ht c x) c.1.1 c.1.2).choose_spec.2⟩, c.2),
      decide ((exRange_reset ((exDebye c).tails (stru x)) (ht c x) c.1.1 c.1.2).choose.clicks ≠ c.1.1.clicks)))
    (fun x c h => Prod.ext (Subtype.ext (congrArg DLCfg.d h)) rfl)
    (fun x c => ⟨_, (exRange_reset ((exDebye c).tails (stru x)) (ht c x) c.1.1 c.1.2).choose_spec.1, rfl, rfl⟩)
  have hocc : ∀ b, UniformOccupancy (sitesOf (stru b)) := by
    intro b
    have key : ∀ p ∈ sitesOf (stru b), (p.typ = "Na" ∧ p.occ = 1) ∨ (p.typ = "Cl" ∧ p.occ = 1 / 2) := by
      cases b
      · intro p hp
        have hp : p ∈ sitesOf (exCell L0) := hp
        simp only [sitesOf, exCell, List.zipIdx, List.map, List.mem_cons, List.not_mem_nil, or_false] at hp
        rcases hp with rfl | rfl <;> norm_num
      · intro p hp
        have hp : p ∈ sitesOf (exDouble L0) := hp
        simp only [sitesOf, exDouble, List.zipIdx, List.map, List.mem_cons, List.not_mem_nil, or_false] at hp
        rcases hp with rfl | rfl | rfl | rfl <;> norm_num
    intro p hp q hq e
    rcases key p hp with ⟨a, a'⟩ | ⟨a, a'⟩ <;> rcases key q hq with ⟨b, b'⟩ | ⟨b, b'⟩
    · rw [a', b']
    · rw [a, b] at e
      exact absurd e (by decide)
    · rw [a, b] at e
      exact absurd e (by decide)
    · rw [a', b']
  have hu : UsualDebye exDebye stru k := by
    refine ⟨fun x y _ => ?_, fun x => (hx x).2.1, hocc, fun c => c.1.2.good, fun _ => trivial,
      fun x => (hx x).2.2.1, fun c x => Or.inr ?_, fun _ _ _ _ _ => rfl, fun _ _ _ _ _ _ _ _ => rfl, fun c => c.1.2.optimum, fun c => ?_,
      fun c => c.1.2.wide⟩
    · cases x <;> cases y <;> trivial
    · cases x <;> exact fun _ _ _ _ => rfl
    · show c.1.1.rmin ≤ _ ∧ c.1.1.rmin ≤ _
      rw [c.1.2.rmin]
      exact ⟨c.1.2.good.maxext, ripples_nonneg _⟩
  obtain ⟨h1, h2, h3, h4⟩ := exDouble_same L0
  have hcfg : exDebye (dcEval k (dcInit k c true 0 1) true).h.cfg = exDebye (dcEval k (dcInit k c false 0 1) false).h.cfg := by
    rw [first_cfg, first_cfg, hk.custom]
    exact reset_same hk c c rfl false true h1 (hx false).2.1 h3
  have hprec : (exDebye (dcEval k (dcInit k c false 0 1) false).h.cfg).d.q.prec = c.1.1.q.prec := by
    rw [first_cfg, hk.custom]
    obtain ⟨d, d1, d2, -⟩ := hk.reset false c
    rw [d2]
    obtain ⟨-, -, -, -, -, h6, -⟩ := reset_parts _ _ _ d1
    show d.q.prec = _
    rw [h6]
    rfl
  have hat : atomCount (sitesOf (stru false)) = 3 / 2 := by
    show atomCount (sitesOf (exCell L0)) = _
    have e : ∀ k, (geom (exCell L0)).mult k = 1 := fun _ => rfl
    have e' : sitesOf (exCell L0) = [⟨"Na", ((1 : ℚ) : ℝ), (geom (exCell L0)).mult 0⟩, ⟨"Cl", ((1 / 2 : ℚ) : ℝ), (geom (exCell L0)).mult 1⟩] := rfl
    rw [e', e, e]
    norm_num [atomCount]
  obtain ⟨F, F', a1, a2, a3, a4⟩ := debye_redescribed_partial (ρ := id) (N := 2) (σ := fun k => k % 2) s hs exDebye stru k hk hu c c false true [] []
    (fun pre f cl r post e => by simp at e) (fun pre f cl r post e => by simp at e) false true rfl rfl hcfg h1 h2 h3 (fun _ _ _ _ => rfl)
    (fun _ _ _ _ _ => le_refl _) (by rw [hat]; norm_num) (by rw [hat]; norm_num) (hprec.trans hp).ge
  refine ⟨k, hk, F, a1, ?_⟩
  have : F' = F := by
    refine List.ext_getElem a3 fun m hm' hm => ?_
    obtain ⟨v, v', b1, b2, b3, b4⟩ := a4 m hm
    rw [List.getElem?_eq_getElem hm] at b1
    rw [List.getElem?_eq_getElem hm'] at b2
    rw [Option.some.inj b1, Option.some.inj b2]
    by_cases h0 : meanFactor (exDebye (dcEval k (dcInit k c false 0 1) false).h.cfg).lookup (sitesOf (stru false))
        ((m : ℝ) * (exDebye (dcEval k (dcInit k c false 0 1) false).h.cfg).d.q.qstep) = 0
    · exact b3 h0
    · have h := b4 h0
      have hz : (exDebye (dcEval k (dcRun k (dcInit k c false 0 1) []) false).h.cfg).d.q.prec = 0 := hprec.trans hp
      rw [hz, zero_mul, zero_div] at h
      exact sub_eq_zero.1 (abs_nonpos_iff.1 h)
  rw [← this]
  exact a2

end Verif.DebyeHist
