import Verif.Props.Factors
import Verif.Props.AmountsDebye
/-! C103: common factors of the occupancies and of the scattering factors; F(Q) of DebyePDFCalculator. -/
set_option linter.unusedSectionVars false
namespace Verif.DebyeHist
open Verif.Eval Verif.Diff Verif.KindDiff Verif.History Verif.Debye Verif.Setters Verif.R3 Verif.Lattice Verif.Geo
open Verif.PDFHist (POp sitesOf Displaced pairWidth TypeMask bare pair_amounts mult_atom sum_atom Diluted dilute dilute_spec pair_diluted atoms_diluted fAverage_diluted)
open scoped BigOperators

/-- The configuration with all scattering factors at every Q multiplied by a number that may depend on Q. -/
noncomputable def DLCfg.withFactor (cf : DLCfg) (fac : ℝ → ℝ) : DLCfg := { cf with lookup := fun t q => fac q * cf.lookup t q }

variable {x x' : RStru} {q₀ : ℚ}

theorem meanFactor_diluted (h : Diluted q₀ x x') (hq : q₀ ≠ 0) (lookup : String → ℝ → ℝ) (fac : ℝ → ℝ) (q : ℝ) :
    meanFactor (fun t q => fac q * lookup t q) (sitesOf x') q = fac q * meanFactor lookup (sitesOf x) q :=
  fAverage_diluted h hq (fun t => lookup t q) (fac q)

/-- The Debye sum is multiplied by the squares of both factors. -/
theorem struSum_factors (cf : DLCfg) (h : Diluted q₀ x x') (hm : TypeMask cf.mask) (fac : ℝ → ℝ) (lo hi q : ℝ) :
    struSum (geom x') lo hi (siteFactor (cf.withFactor fac).lookup (sitesOf x') q) (fun i j => pairWidth cf.pwm x'.atoms[i]? x'.atoms[j]?)
      (fun i j => cf.mask i j x'.atoms[i]? x'.atoms[j]?) q =
    (q₀ * fac q) ^ 2 * struSum (geom x) lo hi (siteFactor cf.lookup (sitesOf x) q) (fun i j => pairWidth cf.pwm x.atoms[i]? x.atoms[j]?)
      (fun i j => cf.mask i j x.atoms[i]? x.atoms[j]?) q := by
  obtain ⟨μ, hμ⟩ := hm
  have key := pair_diluted h (fun a b => if μ a.atomtype b.atomtype = true then ((geom ⟨x.kind, [bare a]⟩).mult 0 : ℝ) *
    (cf.lookup a.atomtype q * cf.lookup b.atomtype q *
      (geom ⟨x.kind, [bare a, bare b]⟩).sum 0 1 (Geo.cut lo hi fun v => wave (pairWidth cf.pwm (some a) (some b) v) q v)) else 0)
    (fun _ _ => rfl) (fun _ _ => rfl) (fun y i j => if cf.mask i j y.atoms[i]? y.atoms[j]? = true then ((geom y).mult i : ℝ) *
      (siteFactor cf.lookup (sitesOf y) q i * siteFactor cf.lookup (sitesOf y) q j *
        (geom y).sum i j (Geo.cut lo hi fun v => wave (pairWidth cf.pwm y.atoms[i]? y.atoms[j]? v) q v)) else 0) fun y hy i j a b ha hb => ?_
  · have hf : ∀ i, siteFactor (cf.withFactor fac).lookup (sitesOf x') q i = fac q * siteFactor cf.lookup (sitesOf x') q i := by
      intro i
      rw [siteFactor_eq, siteFactor_eq]
      cases x'.atoms[i]? with
      | none => exact (mul_zero _).symm
      | some a => exact mul_assoc _ _ _
    have e : struSum (geom x') lo hi (siteFactor (cf.withFactor fac).lookup (sitesOf x') q) (fun i j => pairWidth cf.pwm x'.atoms[i]? x'.atoms[j]?)
        (fun i j => cf.mask i j x'.atoms[i]? x'.atoms[j]?) q = fac q ^ 2 *
        struSum (geom x') lo hi (siteFactor cf.lookup (sitesOf x') q) (fun i j => pairWidth cf.pwm x'.atoms[i]? x'.atoms[j]?)
          (fun i j => cf.mask i j x'.atoms[i]? x'.atoms[j]?) q := by
      unfold struSum
      rw [Finset.mul_sum]
      refine Finset.sum_congr rfl fun i _ => ?_
      rw [Finset.mul_sum]
      refine Finset.sum_congr rfl fun j _ => ?_
      rw [mul_ite, mul_zero, hf, hf]
      split
      · ring
      · rfl
    rw [e]
    unfold struSum
    simp only [geom_cnt]
    rw [key]
    ring
  have hk : y.kind = x.kind := by
    rcases List.mem_cons.1 hy with rfl | hy
    · rfl
    · rw [List.mem_singleton.1 hy]; exact h.1
  rw [siteFactor_eq, siteFactor_eq, mult_atom y i a ha, sum_atom y i j a b ha hb, hk, ha, hb, hμ i j a b]
  simp only [Option.map_some, Option.getD_some]
  split
  · ring
  · ring

variable {C S : Type}

/-- **C103** for the Debye sum, when the atoms of one type have one occupancy in each of the two structures (`UsualDebye`; C44). Two calculators, each
after any history, have a mask by types and configurations that are equal but for a factor `fac Q` of all scattering factors, and evaluate structures the second
of which has `q₀` times the amount of every sort of atom: the second F(Q) is `q₀` times the first up to the precision to which each of them is computed (C91). -/
theorem debye_factors_partial (s : Sorter) (hs : SortSpec s) (conf : C → DLCfg) (stru : S → RStru) (k : Cls C S) (hk : IsLibraryDebye s conf stru k)
    (hu : UsualDebye conf stru k) (c c' : C) (e e' : S) (ops ops' : List (POp C S)) (ha : Called conf k (dcInit k c e 0 1) ops)
    (ha' : Called conf k (dcInit k c' e' 0 1) ops') (y y' : S) (ht : strayed conf k (dcInit k c e 0 1) (ops ++ [.eval y]) = false)
    (ht' : strayed conf k (dcInit k c' e' 0 1) (ops' ++ [.eval y']) = false) (q₀ : ℚ) (hq : q₀ ≠ 0) (fac : ℝ → ℝ) (hfac : ∀ q, fac q ≠ 0) :
    let r := dcEval k (dcRun k (dcInit k c e 0 1) ops) y
    let r' := dcEval k (dcRun k (dcInit k c' e' 0 1) ops') y'
    let cf := conf r.h.cfg
    let a := sitesOf (stru y)
    conf r'.h.cfg = cf.withFactor fac → Diluted q₀ (stru y) (stru y') → TypeMask cf.mask →
    (∀ t (q q' : ℝ), 0 ≤ q → q ≤ q' → |cf.lookup t q'| ≤ |cf.lookup t q|) → (∀ t (q q' : ℝ), 0 ≤ q → q ≤ q' → |fac q' * cf.lookup t q'| ≤ |fac q * cf.lookup t q|) →
    1 / 2 ^ 26 < atomCount a → 1 / 2 ^ 26 < q₀ * atomCount a → 0 ≤ cf.d.q.prec →
    ∃ F F', getF k r = some F ∧ getF k r' = some F' ∧ F'.length = F.length ∧ ∀ m < F.length,
      let q := (m : ℝ) * cf.d.q.qstep
      let n := atomCount a * meanFactor cf.lookup a q ^ 2
      let bonds := fun z : S => (bondCount (geom (stru z)) cf.d.rcalclo cf.d.rcalchi (fun i j => cf.mask i j (stru z).atoms[i]? (stru z).atoms[j]?) : ℝ)
      ∃ v v', F[m]? = some v ∧ F'[m]? = some v' ∧ (meanFactor cf.lookup a q = 0 → v = 0 ∧ v' = 0) ∧ (meanFactor cf.lookup a q ≠ 0 →
        |v' - q₀ * v| ≤ cf.d.q.prec * (bonds y' / (q₀ * fac q ^ 2) + |(q₀ : ℝ)| * bonds y) / n) := by
  intro r r' cf a hcf h hm hmono hmono' hat hat' hprec
  have hq' : (q₀ : ℝ) ≠ 0 := by exact_mod_cast hq
  have h1 := library_F_partial s hs conf stru k hk hu c e ops ha y ht hmono hat hprec
  have h2 := library_F_partial s hs conf stru k hk hu c' e' ops' ha' y' ht'
  have hcf : conf (dcEval k (dcRun k (dcInit k c' e' 0 1) ops') y').h.cfg = cf.withFactor fac := hcf
  have e1 : atomCount (sitesOf (stru y')) = q₀ * atomCount (sitesOf (stru y)) := atoms_diluted h
  have e2 : ∀ q, meanFactor (cf.withFactor fac).lookup (sitesOf (stru y')) q = fac q * meanFactor cf.lookup (sitesOf (stru y)) q :=
    fun q => meanFactor_diluted h hq cf.lookup fac q
  dsimp only at h2
  rw [hcf, e1] at h2
  obtain ⟨F, f1, f2, f3⟩ := h1
  obtain ⟨F', g1, g2, g3⟩ := h2 hmono' hat' hprec
  have hlen : F'.length = F.length := g2.trans f2.symm
  refine ⟨F, F', f1, g1, hlen, fun m hmF => ?_⟩
  obtain ⟨v, v1, v2, v3⟩ := f3 m hmF
  obtain ⟨v', w1, w2, w3⟩ := g3 m (by rw [hlen]; exact hmF)
  rw [e2] at w2 w3
  refine ⟨v, v', v1, w1, fun h0 => ?_, fun h0 => ?_⟩
  · exact ⟨v2 h0, w2 (mul_eq_zero_of_right _ h0)⟩
  · have a1 := v3 h0
    have a2 := w3 (mul_ne_zero (hfac _) h0)
    have e3 := struSum_factors cf h hm fac cf.d.rcalclo cf.d.rcalchi ((m : ℝ) * cf.d.q.qstep)
    have e4 : struSum (geom (stru y')) (cf.withFactor fac).d.rcalclo (cf.withFactor fac).d.rcalchi
        (siteFactor (cf.withFactor fac).lookup (sitesOf (stru y')) ((m : ℝ) * (cf.withFactor fac).d.q.qstep))
        (fun i j => pairWidth (cf.withFactor fac).pwm (stru y').atoms[i]? (stru y').atoms[j]?)
        (fun i j => (cf.withFactor fac).mask i j (stru y').atoms[i]? (stru y').atoms[j]?) ((m : ℝ) * (cf.withFactor fac).d.q.qstep) = _ := e3
    rw [e4] at a2
    clear e3 e4 v2 w2 v3 w3 f3 g3
    dsimp only [DLCfg.withFactor] at a1 a2 ⊢
    have hn0 : 0 < atomCount (sitesOf (stru y)) := lt_trans (by norm_num) hat
    have hf := hfac ((m : ℝ) * cf.d.q.qstep)
    generalize fac ((m : ℝ) * cf.d.q.qstep) = φ at a1 a2 hf ⊢
    generalize meanFactor cf.lookup (sitesOf (stru y)) ((m : ℝ) * cf.d.q.qstep) = f at a1 a2 h0 ⊢
    generalize atomCount (sitesOf (stru y)) = N at a1 a2 hn0 ⊢
    generalize (bondCount (geom (stru y')) cf.d.rcalclo cf.d.rcalchi (fun i j => cf.mask i j (stru y').atoms[i]? (stru y').atoms[j]?) : ℝ) = B' at a2 ⊢
    generalize (bondCount (geom (stru y)) cf.d.rcalclo cf.d.rcalchi (fun i j => cf.mask i j (stru y).atoms[i]? (stru y).atoms[j]?) : ℝ) = B at a1 ⊢
    generalize struSum (geom (stru y)) cf.d.rcalclo cf.d.rcalchi (siteFactor cf.lookup (sitesOf (stru y)) ((m : ℝ) * cf.d.q.qstep))
            (fun i j => pairWidth cf.pwm (stru y).atoms[i]? (stru y).atoms[j]?) (fun i j => cf.mask i j (stru y).atoms[i]? (stru y).atoms[j]?)
            ((m : ℝ) * cf.d.q.qstep) = σ at a1 a2
    have hN : N ≠ 0 := hn0.ne'
    have b2 : (q₀ * φ) ^ 2 * σ / (q₀ * N * (φ * f) ^ 2) = q₀ * (σ / (N * f ^ 2)) := by
      field_simp
    have b3 : cf.d.q.prec * B' / (q₀ * N * (φ * f) ^ 2) = cf.d.q.prec * (B' / (q₀ * φ ^ 2)) / (N * f ^ 2) := by
      field_simp
    rw [b2, b3] at a2
    have b1 : |q₀ * (σ / (N * f ^ 2)) - q₀ * v| ≤ cf.d.q.prec * (|(q₀ : ℝ)| * B) / (N * f ^ 2) := by
      rw [← mul_sub, abs_mul, abs_sub_comm]
      refine (mul_le_mul_of_nonneg_left a1 (abs_nonneg _)).trans (le_of_eq ?_)
      ring
    refine ((abs_sub_le v' (q₀ * (σ / (N * f ^ 2))) (q₀ * v)).trans (add_le_add a2 b1)).trans (le_of_eq ?_)
    rw [mul_add, add_div]

/-! ### A concrete case -/

open Verif.PDFHist (exIso exFew exDilute_u exDilute_stru)

/-- New calculators with precision 0, the second with factors twice those of the first: the structure with half of all occupancies gives half of F(Q). -/
example (s : Sorter) (hs : SortSpec s) (d : {d : D // ExRange d}) (hp : d.1.q.prec = 0) : ∃ k : Cls ({d : D // ExRange d} × Bool) Bool,
    IsLibraryDebye s exDebye (fun b => if b then dilute (1 / 2) exFew else exFew) k ∧
    ∃ F, getF k (dcEval k (dcInit k (d, true) false 0 1) false) = some F ∧
      getF k (dcEval k (dcInit k (d, false) true 0 1) true) = some (F.map (1 / 2 * ·)) := by
  let stru : Bool → RStru := fun b => if b then dilute (1 / 2) exFew else exFew
  have hx : ∀ b, PDFHist.ExStru (· = .atomic) (stru b) := by
    intro b
    cases b
    · exact PDFHist.exFew_stru.1
    · exact exDilute_stru
  have ht : ∀ c (b : Bool) u v, 0 ≤ (exDebye c).tails (stru b) u v := fun c b u v => tails_nonneg _ _ _ _
  obtain ⟨k, hk, -, -⟩ := library_debye_exists s exDebye stru (fun _ => false)
    (fun x c => ((⟨(exRange_reset ((exDebye c).tails (stru x)) (ht c x) c.1.1 c.1.2).choose,
      (exRange_reset ((exDebye c).tails (stru x)) (ht c x) c.1.1 c.1.2).choose_spec.2⟩, c.2),
      decide ((exRange_reset ((exDebye c).tails (stru x)) (ht c x) c.1.1 c.1.2).choose.clicks ≠ c.1.1.clicks)))
    (fun x c h => Prod.ext (Subtype.ext (congrArg DLCfg.d h)) rfl)
    (fun x c => ⟨_, (exRange_reset ((exDebye c).tails (stru x)) (ht c x) c.1.1 c.1.2).choose_spec.1, rfl, rfl⟩)
  have hocc : ∀ b, UniformOccupancy (sitesOf (stru b)) := by
    intro b
    cases b
    · have hs : ∀ p ∈ sitesOf exFew, p.occ = 1 := by
        intro p hp
        simp only [sitesOf, exFew, List.zipIdx, List.map, List.mem_cons, List.not_mem_nil, or_false] at hp
        rcases hp with rfl | rfl <;> norm_num [exIso]
      exact fun p hp q hq _ => (hs p hp).trans (hs q hq).symm
    · have hs : ∀ p ∈ sitesOf (dilute (1 / 2) exFew), p.occ = 1 / 2 := by
        intro p hp
        simp only [sitesOf, dilute, exFew, List.map, List.zipIdx, List.mem_cons, List.not_mem_nil, or_false] at hp
        rcases hp with rfl | rfl <;> norm_num [exIso]
      exact fun p hp q hq _ => (hs p hp).trans (hs q hq).symm
  have hu : UsualDebye exDebye stru k := by
    refine ⟨fun x y _ => ?_, fun x => (hx x).2.1, hocc, fun c => c.1.2.good, fun _ => trivial,
      fun x => (hx x).2.2.1, fun c x => Or.inr ?_, fun _ _ _ _ _ => rfl, fun _ _ _ _ _ _ _ _ => rfl, fun c => c.1.2.optimum, fun c => ?_,
      fun c => c.1.2.wide⟩
    · cases x <;> cases y <;> trivial
    · cases x <;> exact fun _ _ _ _ => rfl
    · show c.1.1.rmin ≤ _ ∧ c.1.1.rmin ≤ _
      rw [c.1.2.rmin]
      exact ⟨c.1.2.good.maxext, ripples_nonneg _⟩
  have hcfg : exDebye (dcEval k (dcInit k (d, false) true 0 1) true).h.cfg =
      (exDebye (dcEval k (dcInit k (d, true) false 0 1) false).h.cfg).withFactor fun _ => 2 := by
    rw [first_cfg, first_cfg, hk.custom]
    obtain ⟨d1, e1, e2, -⟩ := hk.reset false (d, true)
    obtain ⟨d2, e1', e2', -⟩ := hk.reset true (d, false)
    have e : (exDebye (d, false)).tails (stru true) = (exDebye (d, true)).tails (stru false) := debye_tails_sorts (exDebye (d, true)) exDilute_u.1 exDilute_u.2
    rw [e] at e1'
    have e3 : d2 = d1 := Except.ok.inj (e1'.symm.trans e1)
    rw [e2, e2', e3]
    unfold DLCfg.withFactor exDebye
    simp
  have hprec : (exDebye (dcEval k (dcInit k (d, true) false 0 1) false).h.cfg).d.q.prec = d.1.q.prec := by
    rw [first_cfg, hk.custom]
    obtain ⟨d, d1, d2, -⟩ := hk.reset false (d, true)
    rw [d2]
    obtain ⟨-, -, -, -, -, h6, -⟩ := reset_parts _ _ _ d1
    show d.q.prec = _
    rw [h6]
    rfl
  have hat : atomCount (sitesOf (stru false)) = 2 := by
    show atomCount (sitesOf exFew) = _
    have e : ∀ k, (geom exFew).mult k = 1 := fun _ => rfl
    have e' : sitesOf exFew = [⟨"A", ((1 : ℚ) : ℝ), (geom exFew).mult 0⟩, ⟨"B", ((1 : ℚ) : ℝ), (geom exFew).mult 1⟩] := rfl
    rw [e', e, e]
    norm_num [atomCount]
  have hl : ∀ t t' q q', (exDebye (dcEval k (dcInit k (d, true) false 0 1) false).h.cfg).lookup t q =
      (exDebye (dcEval k (dcInit k (d, true) false 0 1) false).h.cfg).lookup t' q' := fun _ _ _ _ => rfl
  obtain ⟨F, F', a1, a2, a3, a4⟩ := debye_factors_partial s hs exDebye stru k hk hu (d, true) (d, false) false true [] []
    (fun pre f cl r post e => by simp at e) (fun pre f cl r post e => by simp at e) false true rfl rfl (1 / 2) (by norm_num) (fun _ => 2) (fun _ => by norm_num)
    hcfg (dilute_spec _ _) ⟨fun _ _ => true, fun _ _ _ _ => rfl⟩
    (fun _ _ _ _ _ => le_refl _) (fun _ _ _ _ _ => le_refl _) (by rw [hat]; norm_num) (by rw [hat]; norm_num) (hprec.trans hp).ge
  refine ⟨k, hk, F, a1, a2.trans (congrArg some (List.ext_getElem (by rw [List.length_map, a3]) fun m hm' hm => ?_))⟩
  rw [List.length_map] at hm
  rw [List.getElem_map]
  obtain ⟨v, v', b1, b2, b3, b4⟩ := a4 m hm
  rw [List.getElem?_eq_getElem hm] at b1
  rw [List.getElem?_eq_getElem hm'] at b2
  rw [Option.some.inj b1, Option.some.inj b2]
  by_cases h0 : meanFactor (exDebye (dcEval k (dcInit k (d, true) false 0 1) false).h.cfg).lookup (sitesOf (stru false))
      ((m : ℝ) * (exDebye (dcEval k (dcInit k (d, true) false 0 1) false).h.cfg).d.q.qstep) = 0
  · obtain ⟨c1, c2⟩ := b3 h0
    rw [c1, c2, mul_zero]
  · have h := b4 h0
    have hz : (exDebye (dcEval k (dcRun k (dcInit k (d, true) false 0 1) []) false).h.cfg).d.q.prec = 0 := hprec.trans hp
    rw [hz, zero_mul, zero_div] at h
    have := sub_eq_zero.1 (abs_nonpos_iff.1 h)
    rw [this]
    norm_num

end Verif.DebyeHist
