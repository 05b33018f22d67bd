import Verif.Props.DebyeStale
import Mathlib.Tactic.Tauto
/-! C87, C91: why `setRstep` before a fast update is left out.  It does not click the ticker; a fast update then takes the removed bonds from the range that the new step gives
for the old structure, not from the range in which they were summed. -/
set_option linter.unnecessarySeqFocus false
namespace Verif.DebyeHist
open Verif.Eval Verif.Diff Verif.KindDiff Verif.History Verif.Debye Verif.Setters Verif.R3 Verif.Lattice Verif.Geo
open Verif.PDFHist (POp sitesOf)
open Verif.PDFGrid (rminSteps rmaxSteps)

/-- Two atoms 12 apart, one of which vibrates more in `rsStru true`, and two far away. -/
def rsStru (b : Bool) : RStru := ⟨.atomic, [carbon 0 0 0, carbon 12 0 (if b then 1 else 0), carbon 0 1000 0, carbon 0 (-1000) 0]⟩

/-- Range 0 to 9 in steps of 1 or 1/2, optimum Q step for the range up to 14. -/
noncomputable def rsD (half : Bool) (n : ℤ) (cached : Bool) : D :=
  { q := ⟨0, 24 * Real.pi, Real.pi / 14, 0⟩, qminpdf := 0, rmin := 0, rmax := 9, rstep := if half then 1 / 2 else 1, maxext := 10,
    optimum := true, clo := 0, chi := n, cached := cached, clicks := 0 }

/-- The peaks of the second structure reach 2.8 further. -/
noncomputable def rsTails (b : Bool) : ℝ := if b then 9 / 2 else 17 / 10

/-- The number of steps to the upper limit of the range. -/
def rsHi (b half : Bool) : ℤ := if half then (if b then 28 else 23) else (if b then 14 else 12)

theorem rs_ripples (half : Bool) (n : ℤ) (ca : Bool) : (rsD half n ca).ripples = 1 / 2 := by
  have hpi := Real.pi_pos
  unfold D.ripples
  have : (rsD half n ca).q.qmax > 0 := by show 24 * Real.pi > 0; positivity
  rw [if_pos this]
  show 6 * 2 * Real.pi / (24 * Real.pi) = 1 / 2
  field_simp
  norm_num

theorem rs_cache (b half : Bool) (n : ℤ) (ca : Bool) : cacheRlimits (fun _ _ => rsTails b) (rsD half n ca) =
    rsD half (if rsHi b half ≤ n - 50 ∨ rsHi b half > n then rsHi b half else n) true := by
  have he : D.ext (fun _ _ => rsTails b) (rsD half n ca) = if b then 5 else 11 / 5 := by
    unfold D.ext
    rw [rs_ripples]
    show min (10 : ℝ) (1 / 2 + rsTails b) = _
    unfold rsTails
    cases b <;> norm_num
  have hn : rmaxSteps ((rsD half n ca).rmax + D.ext (fun _ _ => rsTails b) (rsD half n ca)) (rsD half n ca).rstep = rsHi b half := by
    rw [he]
    unfold rmaxSteps
    show ⌈((9 : ℝ) + if b then 5 else 11 / 5) / (if half then 1 / 2 else 1)⌉ = _
    unfold rsHi
    rw [Int.ceil_eq_iff]
    cases b <;> cases half <;> norm_num
  have hl : max 0 (rminSteps ((rsD half n ca).rmin - D.ext (fun _ _ => rsTails b) (rsD half n ca)) (rsD half n ca).rstep) = 0 := by
    refine max_eq_left ?_
    rw [he]
    have hc0 : ⌈((rsD half n ca).rmin - if b then 5 else 11 / 5) / (rsD half n ca).rstep⌉ ≤ 0 := by
      rw [Int.ceil_le]
      show ((0 : ℝ) - if b then 5 else 11 / 5) / (if half then 1 / 2 else 1) ≤ _
      cases b <;> cases half <;> norm_num
    generalize ((rsD half n ca).rmin - if b then 5 else 11 / 5) = y at hc0
    unfold rminSteps
    dsimp only
    split
    · omega
    · exact hc0
  unfold cacheRlimits
  dsimp only
  rw [hn, hl]
  rfl

/-- `resetValue` finds the same Q step, without a click, when the range is up to 14. -/
theorem rs_reset (b half : Bool) (n : ℤ) (ca : Bool)
    (h : (((if rsHi b half ≤ n - 50 ∨ rsHi b half > n then rsHi b half else n : ℤ)) : ℝ) * (if half then 1 / 2 else 1) = 14) :
    dstep (fun _ _ => rsTails b) (rsD half n ca) .reset = .ok (rsD half (if rsHi b half ≤ n - 50 ∨ rsHi b half > n then rsHi b half else n) true) := by
  have hpi := Real.pi_pos
  show updateQstep _ (cacheRlimits _ (rsD half n ca)) = _
  rw [rs_cache, updateQstep_eq]
  generalize (if rsHi b half ≤ n - 50 ∨ rsHi b half > n then rsHi b half else n) = m at h
  have he : ensureCached (fun _ _ => rsTails b) (rsD half m true) = rsD half m true := rfl
  rw [he]
  dsimp only
  have hr : (rsD half m true).rcalchi = 14 := h
  have ho : (rsD half m true).oqstep = Real.pi / 14 := by
    unfold D.oqstep
    rw [hr, if_pos]
    show 24 * Real.pi * 14 / Real.pi > 4
    rw [gt_iff_lt, lt_div_iff₀ hpi]
    linarith
  have h1 : (rsD half m true).optimum = true := rfl
  have h2 : (1 : ℝ) / 2 ^ 26 < Real.pi / 14 := by
    rw [lt_div_iff₀ (by norm_num)]
    have := Real.pi_gt_three
    norm_num
    linarith
  have h3 : (rsD half m true).q.qstep = Real.pi / 14 := rfl
  rw [if_pos (Or.inr h1), ho, if_pos h2, h3, clickIf_fields]
  simp [rsD]

/-- All pairs but the first two atoms are out of any range up to 20. -/
theorem rs_far (b : Bool) (lo hi : ℝ) (hhi : hi ≤ 20) (i j : ℕ) (h1 : i < 4) (h2 : j < 4)
    (hne : ((i = 0 ∧ j = 1) ∨ (i = 1 ∧ j = 0)) → hi < 12) : vecs (geom (rsStru b)) lo hi i j = [] := by
  have hs := (vecs_spec (geom (rsStru b)) trivial lo hi i j h1 h2).2
  refine List.eq_nil_iff_forall_not_mem.2 fun v hv => ?_
  obtain ⟨hv, hr⟩ := (hs v).1 hv
  change v = V3.sub (posOf (rsStru b).atoms j) (posOf (rsStru b).atoms i) at hv
  obtain ⟨-, r2, r3⟩ := hr
  have hn : ∀ w : V3, w.x = 0 → w.y = 0 → w.z = 0 → V3.norm w = 0 := by
    intro w a1 a2 a3
    unfold V3.norm V3.dot
    rw [a1, a2, a3]
    norm_num
  have hp : 0 < V3.norm v := lt_trans (by norm_num) r3
  have hc : (v.x = 0 ∧ v.y = 0 ∧ v.z = 0) ∨ (((i = 0 ∧ j = 1) ∨ (i = 1 ∧ j = 0)) ∧ |v.x| = 12) ∨ 1000 ≤ |v.z| := by
    interval_cases i <;> interval_cases j <;>
      simp only [posOf, rsStru, carbon, List.getElem?_cons_zero, List.getElem?_cons_succ, Option.map_some, Option.getD_some, atomPos, V3.sub] at hv <;>
      rw [hv] <;> norm_num
  rcases hc with ⟨a1, a2, a3⟩ | ⟨a1, a2⟩ | a1
  · rw [hn v a1 a2 a3] at hp
    exact lt_irrefl _ hp
  · have := V3.abs_x_le v
    have := hne a1
    linarith
  · have := V3.abs_z_le v
    linarith

/-- The bond of the first two atoms. -/
theorem rs_near (b : Bool) (hi : ℝ) (hhi : 12 ≤ hi) : ∃ v : V3, V3.norm v = 12 ∧ vecs (geom (rsStru b)) 0 hi 1 0 = [v] := by
  have hs := vecs_spec (geom (rsStru b)) trivial 0 hi 1 0 (by show 1 < 4; norm_num) (by show 0 < 4; norm_num)
  have hn : V3.norm ⟨-12, 0, 0⟩ = 12 := by
    unfold V3.norm V3.dot
    have : (-12 : ℝ) * -12 + 0 * 0 + 0 * 0 = 12 ^ 2 := by norm_num
    rw [this, Real.sqrt_sq (by norm_num)]
  have hv : ∀ v, (geom (rsStru b)).IsVec 1 0 v ↔ v = ⟨-12, 0, 0⟩ := by
    intro v
    show v = V3.sub (posOf (rsStru b).atoms 0) (posOf (rsStru b).atoms 1) ↔ _
    simp only [posOf, rsStru, carbon, List.getElem?_cons_zero, List.getElem?_cons_succ, Option.map_some, Option.getD_some, atomPos, V3.sub]
    norm_num
  refine ⟨⟨-12, 0, 0⟩, hn, ?_⟩
  refine List.perm_singleton.1 ((List.perm_ext_iff_of_nodup hs.1 (List.nodup_singleton _)).2 fun v => ?_)
  rw [hs.2 v, hv v, List.mem_singleton]
  refine ⟨fun h => h.1, fun h => ⟨h, ?_⟩⟩
  rw [h, hn]
  exact ⟨by norm_num, hhi, by norm_num⟩

theorem rs_base (half : Bool) (n : ℤ) (ca : Bool) (h : 0 ≤ n ∧ n ≤ 28) : ExBase (rsD half n ca) := by
  have hpi := Real.pi_gt_three
  have hs : (1 : ℝ) / 2 ≤ (if half then 1 / 2 else 1) ∧ (if half then (1 : ℝ) / 2 else 1) ≤ 1 := by cases half <;> norm_num
  have hn : (n : ℝ) ≤ 28 := by exact_mod_cast h.2
  have hn0 : (0 : ℝ) ≤ n := by exact_mod_cast h.1
  refine ⟨⟨rfl, le_refl _, ?_, ?_, le_refl _, ?_, ?_, ?_, le_refl _, h.1⟩, rfl, rfl, ?_, ?_, hs.2, ?_, ?_⟩
  · show 0 ≤ 24 * Real.pi
    positivity
  · show (1 : ℝ) / 2 ^ 26 < Real.pi / 14
    rw [lt_div_iff₀ (by norm_num)]
    norm_num
    linarith
  · show (0 : ℝ) ≤ 9
    norm_num
  · show (1 : ℝ) / 2 ^ 26 < (if half then 1 / 2 else 1)
    exact lt_of_lt_of_le (by norm_num) hs.1
  · show (0 : ℝ) ≤ 10
    norm_num
  · show (9 : ℝ) ≤ 100
    norm_num
  · show (10 : ℝ) ≤ 100
    norm_num
  · show (n : ℝ) * (if half then 1 / 2 else 1) ≤ 1000
    nlinarith [hs.1, hs.2]
  · show 4 * Real.pi < 24 * Real.pi * 9
    linarith

/-- Factors 1, sharp peaks, no mask. -/
noncomputable def rsConf (d : {d : D // ExBase d}) : DCfg := ⟨d.1, fun _ _ => 1, fun _ _ _ _ => 0, fun _ _ _ _ => true⟩

/-- When the range is not up to date, the bond generator gets the one for the structure (DebyePDFCalculator.cpp:274-278, :336-349). -/
def LateRange {C S : Type} (conf : C → DCfg) (stru : S → RStru) (tails : C → S → ℝ → ℝ → ℝ) (k : Cls C S) : Prop :=
  ∀ c x i sel, let d := ensureCached (tails c x) (conf c).d
    (k.gen c x i sel).Perm (sel.flatMap fun j => ((vecs (geom (stru x)) d.rcalclo d.rcalchi i j).map
      fun v => (⟨V3.norm v, (conf c).W (stru x) i j v, (geom (stru x)).mult i⟩ : Bond)).map fun b => (j, b))

/-- There is such a calculator with the structures above. -/
theorem rs_exists (s : Sorter) : ∃ k : Cls {d : D // ExBase d} Bool,
    IsDebyeCalculator s rsConf rsStru (fun _ b _ _ => rsTails b) k ∧ Regular rsConf rsStru (fun _ b _ _ => rsTails b) k ∧
    LateRange rsConf rsStru (fun _ b _ _ => rsTails b) k := by
  classical
  have ht : ∀ b : Bool, ∀ _ _ : ℝ, 0 ≤ rsTails b := by
    intro b _ _
    unfold rsTails
    cases b <;> norm_num
  let E : {d : D // ExBase d} → Bool → D := fun c x => ensureCached (fun _ _ => rsTails x) c.1
  let G : {d : D // ExBase d} → Bool → Gen BondGen.Bond := fun c x => (gen_exists (geom (rsStru x)) (E c x).rcalclo (E c x).rcalchi).choose
  have hG : ∀ c x, (geom (rsStru x)).IsGen (E c x).rcalclo (E c x).rcalchi (G c x) := fun c x => (gen_exists (geom (rsStru x)) _ _).choose_spec
  let R : Bool → {d : D // ExBase d} → {d : D // ExBase d} × Bool := fun x c =>
    (⟨(exBase_reset _ (ht x) c.1 c.2).choose, (exBase_reset _ (ht x) c.1 c.2).choose_spec.2.base⟩,
      decide ((exBase_reset _ (ht x) c.1 c.2).choose.clicks ≠ c.1.clicks))
  let k : Cls {d : D // ExBase d} Bool :=
    { hasPairMask := fun _ => false
      rule := chopOuterRule
      count := fun x => (rsStru x).atoms.length
      use := fun c x i j => (rsConf c).M (rsStru x) i j
      reset := R
      custom := R
      diff := fun x y => KindDiff.diff s false (rsStru x) (rsStru y)
      par := fun c => (rsConf c).d.q
      cache := fun c x => cacheOf (rsConf c).d.q (sfPDF (rsConf c).lookup (sitesOf (rsStru x))) (sitesOf (rsStru x))
      avg := fun c x => sfAverage (rsConf c).d.q (cacheOf (rsConf c).d.q (sfPDF (rsConf c).lookup (sitesOf (rsStru x))) (sitesOf (rsStru x)))
        (sitesOf (rsStru x))
      totocc := fun x => totalOccupancy (sitesOf (rsStru x))
      gen := fun c x i sel => if i < (geom (rsStru x)).cnt ∧ ∀ j ∈ sel, j < (geom (rsStru x)).cnt then
          readGen (geom (rsStru x)).mult (fun _ _ _ => 0) (G c x) i sel else
        sel.flatMap fun j => ((vecs (geom (rsStru x)) (E c x).rcalclo (E c x).rcalchi i j).map
          fun v => (⟨V3.norm v, (rsConf c).W (rsStru x) i j v, (geom (rsStru x)).mult i⟩ : Bond)).map fun b => (j, b) }
  have hE : ∀ c x, (rsConf c).d.cached = true → E c x = (rsConf c).d := by
    intro c x h
    have h' : c.1.cached = true := h
    show ensureCached _ c.1 = _
    unfold ensureCached
    rw [if_pos h']
    rfl
  have hk : IsDebyeCalculator s rsConf rsStru (fun _ b _ _ => rsTails b) k := by
    refine ⟨fun x c h => Subtype.ext (congrArg DCfg.d h), fun _ => rfl, fun _ _ => rfl, fun _ _ _ _ => rfl, fun _ => rfl, fun _ _ => rfl, fun _ _ => rfl,
      fun _ => rfl, rfl, fun x c => ⟨_, (exBase_reset _ (ht x) c.1 c.2).choose_spec.1, rfl, rfl⟩, fun _ _ _ => rfl, fun c x h => ?_, fun c x i sel h h' => ?_⟩
    · refine ⟨G c x, fun _ _ _ => 0, ?_, fun i _ j _ v _ _ => rfl, fun i sel h1 h2 => if_pos ⟨h1, h2⟩⟩
      have := hG c x
      rw [hE c x h] at this
      exact this
    · rw [← hE c x h]
      show (ite _ _ _ : List (ℕ × Bond)).Perm _
      rw [if_neg h']
  have hr : Usable rsConf rsStru (fun _ b _ _ => rsTails b) k := by
    refine ⟨fun x y _ => trivial, fun x => trivial, ?_, fun c => c.2.good, fun c x => ht x, fun c x => Or.inr fun i j _ _ => rfl, ?_,
      fun _ _ _ _ _ => rfl, fun _ _ _ _ _ _ _ _ => rfl⟩
    · intro x s hs t ht _
      simp only [sitesOf, rsStru, carbon, List.zipIdx_cons, List.zipIdx_nil, List.map_cons, List.map_nil, List.mem_cons, List.not_mem_nil, or_false] at hs ht
      rcases hs with rfl | rfl | rfl | rfl <;> rcases ht with rfl | rfl | rfl | rfl <;> rfl
    · intro c x lo hi
      exact Debye.reciprocal_distance (geom (rsStru x)) trivial lo hi (fun _ _ _ => 0) (fun _ _ _ => rfl)
  refine ⟨k, hk, ⟨hr, fun c => c.2.optimum, fun c x => ?_, fun c => c.2.wide⟩, fun c x i sel => ?_⟩
  · show c.1.rmin ≤ _
    rw [c.2.rmin]
    exact ext_nonneg _ (ht x) _ c.2.good.maxext
  · show (ite _ _ _ : List (ℕ × Bond)).Perm _
    split
    · next h =>
      exact readGen_perm (geom (rsStru x)) trivial (E c x).rcalclo (E c x).rcalchi (G c x) (hG c x) (fun _ _ _ => 0) (fun _ _ _ => 0) (fun i _ j _ v _ _ => rfl) i sel h.1 h.2
    · exact List.Perm.refl _

/-- `setRstep(0.5)`. -/
noncomputable def rsSet (c : {d : D // ExBase d}) : {d : D // ExBase d} :=
  open Classical in
  if h : ExBase (after (dstep (fun _ _ => 0) c.1 (.setRstep (1 / 2)))) then ⟨_, h⟩ else c

theorem rsSet_eq : rsSet ⟨rsD false 14 true, rs_base _ _ _ (by norm_num)⟩ = ⟨rsD true 14 false, rs_base _ _ _ (by norm_num)⟩ := by
  have hn : throwsNotPositive (1 / 2 : ℝ) = false := by
    unfold throwsNotPositive
    rw [Bool.not_eq_false', decide_eq_true_eq]
    norm_num [PDFGrid.eps]
  have he : after (dstep (fun _ _ => 0) (rsD false 14 true) (.setRstep (1 / 2))) = rsD true 14 false := by
    simp only [dstep, hn]
    rw [if_neg (by simp)]
    simp [after, rsD]
  unfold rsSet
  have h : ExBase (after (dstep (fun _ _ => 0) (rsD false 14 true) (.setRstep (1 / 2)))) := by
    rw [he]
    exact rs_base _ _ _ (by norm_num)
  dsimp only
  rw [dif_pos h]
  exact Subtype.ext he

/-- **C87, C91, defect**. A DebyePDFCalculator with the optimum Q step evaluates a structure with two atoms 12 apart in the range up to 14 of earlier evaluations. After `setRstep(0.5)` it
evaluates the structure with one of these atoms vibrating more. The fast update removes the old bonds within the range up to 11.5 that the smaller step gives for the
old structure, and adds the new ones in the range up to 14 of the new structure: the bond is counted twice, F(Q) is twice that of a new calculator. -/
theorem setRstep_bug (s : Sorter) : ∃ k : Cls {d : D // ExBase d} Bool,
    IsDebyeCalculator s rsConf rsStru (fun _ b _ _ => rsTails b) k ∧ Regular rsConf rsStru (fun _ b _ _ => rsTails b) k ∧
    LateRange rsConf rsStru (fun _ b _ _ => rsTails b) k ∧
      let r := dcEval k (dcRun k (dcInit k ⟨rsD false 14 true, rs_base _ _ _ (by norm_num)⟩ false 0 1) [.eval false, .configure rsSet false false]) true
      let f := dcEval k (dcInit k r.h.cfg false 0 1) true
      f.h.cfg = r.h.cfg ∧ ∃ F F', getF k r = some F ∧ getF k f = some F' ∧ F.getD 1 0 = 2 * F'.getD 1 0 ∧ F'.getD 1 0 ≠ 0 := by
  obtain ⟨k, hk, hr, hl⟩ := rs_exists s
  refine ⟨k, hk, hr, hl, ?_⟩
  have hcus : ∀ b half n ca m (h : 0 ≤ n ∧ n ≤ 28) (h' : 0 ≤ m ∧ m ≤ 28),
      dstep (fun _ _ => rsTails b) (rsD half n ca) .reset = .ok (rsD half m true) →
      k.custom b ⟨rsD half n ca, rs_base _ _ _ h⟩ = (⟨rsD half m true, rs_base _ _ _ h'⟩, false) := by
    intro b half n ca m h h' he
    obtain ⟨d', h1, h2, h3⟩ := hk.reset b ⟨rsD half n ca, rs_base _ _ _ h⟩
    have h1' := he.symm.trans h1
    cases h1'
    rw [hk.custom]
    refine Prod.ext ?_ ?_
    · refine Subtype.ext ?_
      exact congrArg DCfg.d h2
    · rw [h3]
      exact decide_eq_false fun h => h rfl
  set c0 : {d : D // ExBase d} := ⟨rsD false 14 true, rs_base _ _ _ (by norm_num)⟩ with hc0
  set c1 : {d : D // ExBase d} := ⟨rsD true 14 false, rs_base _ _ _ (by norm_num)⟩ with hc1
  set c2 : {d : D // ExBase d} := ⟨rsD true 28 true, rs_base _ _ _ (by norm_num)⟩ with hc2
  have h0 : k.custom false c0 = (c0, false) := by
    refine hcus false false 14 true 14 (by norm_num) (by norm_num) ?_
    rw [rs_reset false false 14 true (by norm_num [rsHi])]
    norm_num [rsHi]
  have h12 : k.custom true c1 = (c2, false) := by
    refine hcus true true 14 false 28 (by norm_num) (by norm_num) ?_
    rw [rs_reset true true 14 false (by norm_num [rsHi])]
    norm_num [rsHi]
  have h22 : k.custom true c2 = (c2, false) := by
    refine hcus true true 28 true 28 (by norm_num) (by norm_num) ?_
    rw [rs_reset true true 28 true (by norm_num [rsHi])]
    norm_num [rsHi]
  have hset : rsSet c0 = c1 := rsSet_eq
  -- the bonds
  have hfar : ∀ c b hi i sel, (ensureCached (fun _ _ => rsTails b) (rsConf c).d).rcalchi = hi → hi ≤ 20 → i < 4 → (∀ j ∈ sel, j < 4) →
      (∀ j ∈ sel, ((i = 0 ∧ j = 1) ∨ (i = 1 ∧ j = 0)) → hi < 12) → k.gen c b i sel = [] := by
    intro c b hi i sel hc h20 hi4 hsel h
    refine List.perm_nil.1 ((hl c b i sel).trans (List.Perm.of_eq ?_))
    rw [List.flatMap_eq_nil_iff]
    intro j hj
    dsimp only
    rw [rs_far b _ _ (by rw [hc]; exact h20) i j hi4 (hsel j hj) (by rw [hc]; exact h j hj)]
    rfl
  have r0 : ∀ b, (ensureCached (fun _ _ => rsTails b) (rsConf c0).d).rcalchi = 14 := by
    intro b
    show ((14 : ℤ) : ℝ) * (if false = true then 1 / 2 else 1) = 14
    norm_num
  have r2 : ∀ b, (ensureCached (fun _ _ => rsTails b) (rsConf c2).d).rcalchi = 14 := by
    intro b
    show ((28 : ℤ) : ℝ) * (if true = true then 1 / 2 else 1) = 14
    norm_num
  have r1 : (ensureCached (fun _ _ => rsTails false) (rsConf c1).d).rcalchi = 23 / 2 := by
    have : ensureCached (fun _ _ => rsTails false) (rsConf c1).d = rsD true 23 true := by
      show cacheRlimits (fun _ _ => rsTails false) (rsD true 14 false) = _
      rw [rs_cache]
      norm_num [rsHi]
    rw [this]
    show ((23 : ℤ) : ℝ) * (if true = true then 1 / 2 else 1) = 23 / 2
    norm_num
  have hnear : ∀ c b sel, (ensureCached (fun _ _ => rsTails b) (rsConf c).d).rcalclo = 0 → (ensureCached (fun _ _ => rsTails b) (rsConf c).d).rcalchi = 14 →
      sel = [0, 1] ∨ sel = [0, 2, 3, 1] → k.gen c b 1 sel = [(0, ⟨12, 0, 1⟩)] := by
    intro c b sel hlo hhi hsel
    obtain ⟨v, hv, hvs⟩ := rs_near b 14 (by norm_num)
    refine List.perm_singleton.1 ((hl c b 1 sel).trans (List.Perm.of_eq ?_))
    dsimp only
    rw [hlo, hhi]
    have hz : ∀ j, j < 4 → j ≠ 0 → vecs (geom (rsStru b)) 0 14 1 j = [] := by
      intro j hj h0
      exact rs_far b 0 14 (by norm_num) 1 j (by norm_num) hj (by rintro (⟨h, -⟩ | ⟨-, h⟩); exact absurd h (by norm_num); exact absurd h h0)
    rcases hsel with rfl | rfl
    · rw [List.flatMap_cons, List.flatMap_cons, List.flatMap_nil, hvs, hz 1 (by norm_num) (by norm_num)]
      show [(0, (⟨V3.norm v, 0, 1⟩ : Bond))] = _
      rw [hv]
    · rw [List.flatMap_cons, List.flatMap_cons, List.flatMap_cons, List.flatMap_cons, List.flatMap_nil, hvs, hz 1 (by norm_num) (by norm_num),
        hz 2 (by norm_num) (by norm_num), hz 3 (by norm_num) (by norm_num)]
      show [(0, (⟨V3.norm v, 0, 1⟩ : Bond))] = _
      rw [hv]
  have l0 : ∀ b, (ensureCached (fun _ _ => rsTails b) (rsConf c0).d).rcalclo = 0 := by
    intro b
    show ((0 : ℤ) : ℝ) * _ = 0
    norm_num
  have l2 : ∀ b, (ensureCached (fun _ _ => rsTails b) (rsConf c2).d).rcalclo = 0 := by
    intro b
    show ((0 : ℤ) : ℝ) * _ = 0
    norm_num
  have hcnt : ∀ b, k.count b = 4 := fun b => hk.count b
  have huse : ∀ c b, k.use c b = fun _ _ => true := by
    intro c b
    funext i j
    exact hk.use c b i j
  have hdiff : k.diff false true = ⟨4, 4, [1], [1], .sideBySide⟩ := by
    rw [hk.diff]
    rfl
  have hsites : sitesOf (rsStru false) = sitesOf (rsStru true) := rfl
  have hpar : ∀ c : {d : D // ExBase d}, c = c0 ∨ c = c1 ∨ c = c2 → k.par c = (rsD false 14 true).q := by
    rintro c (rfl | rfl | rfl) <;> rw [hk.par] <;> rfl
  set cc := cacheOf (rsD false 14 true).q (sfPDF (fun _ _ => 1) (sitesOf (rsStru true))) (sitesOf (rsStru true)) with hcc
  have hcache : ∀ c b, c = c0 ∨ c = c1 ∨ c = c2 → k.cache c b = cc := by
    rintro c b (rfl | rfl | rfl) <;> rw [hk.cache] <;> cases b <;> rfl
  set t : Contrib Bond := ⟨1, 0, 2, ⟨12, 0, 1⟩⟩ with ht
  -- a full evaluation
  have hfull : ∀ c b d, (c = c0 ∨ c = c2) → k.custom b c = (c, false) →
      (fullData k c 0 1 b d).value = value (rsD false 14 true).q cc [t] ∧ (fullData k c 0 1 b d).cache = cc ∧
      (fullData k c 0 1 b d).avg = k.avg c b ∧ (fullData k c 0 1 b d).totocc = k.totocc b := by
    intro c b d hc hcu
    have hch : ∀ b, (ensureCached (fun _ _ => rsTails b) (rsConf c).d).rcalchi = 14 := by rcases hc with rfl | rfl; exacts [r0, r2]
    have hcl : ∀ b, (ensureCached (fun _ _ => rsTails b) (rsConf c).d).rcalclo = 0 := by rcases hc with rfl | rfl; exacts [l0, l2]
    have hc' : c = c0 ∨ c = c1 ∨ c = c2 := by tauto
    unfold fullData
    rw [hcu, hcnt]
    dsimp only
    rw [huse]
    have g0 := hfar c b 14 0 [0] (hch b) (by norm_num) (by norm_num) (by simp) (by simp)
    have g1 := hnear c b [0, 1] (hcl b) (hch b) (Or.inl rfl)
    have g2 := hfar c b 14 2 [0, 1, 2] (hch b) (by norm_num) (by norm_num) (by simp) (by simp)
    have g3 := hfar c b 14 3 [0, 1, 2, 3] (hch b) (by norm_num) (by norm_num) (by simp) (by simp)
    have htr : basicTrace (k.rule 4 1) (k.gen c b) false (fun _ _ => true) 4 0 1 = [t] := by
      simp [basicTrace, basicLoop, List.range_succ, g0, g1, g2, g3, innerLoop, sumScale, ht]
    rw [htr]
    have hca := hcache c b hc'
    have hpp := hpar c hc'
    refine ⟨?_, ?_, rfl, rfl⟩
    · show addPair (k.par c) ((k.cache c b).sf 1) ((k.cache c b).sf 0) 2 ⟨12, 0, 1⟩ (List.replicate (k.par c).hi.toNat 0) = _
      rw [hca, hpp]
      rfl
    · exact hca
  -- the first evaluation
  have e1h : (dcEval k (dcInit k c0 false 0 1) false).h =
      ⟨1, 0, 1, some false, false, c0, (), (), (), .optimized, .basic, 0, 1⟩ := by
    show evalSt k.control _ false = _
    rw [evalSt_eq]
    show setLast (basicFinal k.control 0 1 false (dcInit k c0 false 0 1).h) = _
    unfold basicFinal setStru
    have hc : k.control.custom false (setUsed .basic (dcInit k c0 false 0 1).h).cfg = (c0, false) := h0
    rw [hc]
    rfl
  have e1d : (dcEval k (dcInit k c0 false 0 1) false).d.value = value (rsD false 14 true).q cc [t] ∧
      (dcEval k (dcInit k c0 false 0 1) false).d.cache = cc := by
    have hf : fastChoice k.control (dcInit k c0 false 0 1).h false = none := rfl
    have he : (dcEval k (dcInit k c0 false 0 1) false).d = fullData k c0 0 1 false (dcInit k c0 false 0 1).d := by
      show optData k (dcInit k c0 false 0 1).h false _ = _
      unfold optData
      rw [hf]
      rfl
    rw [he]
    exact ⟨(hfull c0 false _ (Or.inl rfl) h0).1, (hfull c0 false _ (Or.inl rfl) h0).2.1⟩
  -- the change of the step
  generalize hm1 : dcEval k (dcInit k c0 false 0 1) false = m1 at e1h e1d
  have hm2h : (dcStep k m1 (.configure rsSet false false)).h =
      ⟨1, 0, 1, some false, false, c1, (), (), (), .optimized, .basic, 0, 1⟩ := by
    show step k.control m1.h (.configure rsSet false) = _
    rw [e1h]
    unfold step
    dsimp only
    rw [hset]
    rfl
  have hm2d : (dcStep k m1 (.configure rsSet false false)).d = m1.d := rfl
  generalize hm2 : dcStep k m1 (.configure rsSet false false) = m2 at hm2h hm2d
  -- the second evaluation
  have hfc : fastChoice k.control m2.h true = some (false, ⟨4, 4, [1], [1], .sideBySide⟩) := by
    rw [hm2h]
    unfold fastChoice
    show (if (0 : ℕ) ≥ 1 then none else if !(k.diff false true).allowsFast then none else
      if (false || k.hasPairMask _) && decide ((k.diff false true).method ≠ .sideBySide) then none else some (false, k.diff false true)) = _
    rw [hdiff]
    simp
    rfl
  have htick : (setStru k.control true m2.h).pqTick = 0 := by
    rw [hm2h]
    unfold setStru
    have hc : k.control.custom true c1 = (c2, false) := h12
    dsimp only
    rw [hc]
    rfl
  have hval1 : m2.h.valTick = 1 := by rw [hm2h]
  have hcfg1 : m2.h.cfg = c1 := by rw [hm2h]
  have hev1 : m2.h.evtype = .optimized := by rw [hm2h]
  have hcpu : m2.h.cpuindex = 0 ∧ m2.h.ncpu = 1 ∧ m2.h.cur = false := by rw [hm2h]; exact ⟨rfl, rfl, rfl⟩
  have e2c : (dcEval k m2 true).h.cfg = c2 := by
    show (evalSt k.control m2.h true).cfg = _
    rw [evalSt_eq, hev1]
    dsimp only
    unfold optFinal
    rw [hfc]
    dsimp only
    rw [htick, hval1, if_neg (by norm_num)]
    show (midFast k.control false true _ (setUsed .optimized m2.h)).cfg = _
    rw [midFast_cfg]
    show (k.custom true m2.h.cfg).1 = _
    rw [hcfg1, h12]
  have hd2 : (dcEval k m2 true).d.value = value (rsD false 14 true).q cc [t, t] ∧ (dcEval k m2 true).d.avg = k.avg c2 true ∧
      (dcEval k m2 true).d.totocc = k.totocc true := by
    have he : (dcEval k m2 true).d = addBond k c2 (restorePartialValue (resetValue k c2 true (stashPartialValue m2.d))) t := by
      show evalData k m2.h true m2.d = _
      unfold evalData
      rw [hev1]
      show optData k m2.h true m2.d = _
      unfold optData
      rw [hfc]
      dsimp only
      rw [htick, hval1, if_neg (by norm_num), hcfg1, h12, hcpu.1, hcpu.2.1, hcnt, hcnt, huse, huse]
      have hrem : (removeTrace (k.gen c1 false) false (fun _ _ => true) 4 [1] 0 1) = (1, []) := by
        have hg := hfar c1 false (23 / 2) 1 [1, 0, 2, 3] r1 (by norm_num) (by norm_num) (by simp) (by norm_num)
        simp [removeTrace, complementaryIndices, complLoop, List.range_succ, removeLoop, hg, innerLoop]
      have hadd : addTrace (k.gen c2 true) false (fun _ _ => true) 4 [1] 1 1 = [t] := by
        have hskip : skips 1 1 = false := rfl
        have hg := hnear c2 true [0, 2, 3, 1] (l2 true) (r2 true) (Or.inr rfl)
        simp [Eval.addTrace, complementaryIndices, complLoop, List.range_succ, addLoop, hg, hskip, innerLoop, sumScale, ht]
      rw [hrem, hadd]
      rfl
    rw [he]
    have hca := hcache c2 true (by tauto)
    have hpp := hpar c2 (by tauto)
    refine ⟨?_, rfl, rfl⟩
    show addPair (k.par c2) ((k.cache c2 true).sf 1) ((k.cache c2 true).sf 0) 2 ⟨12, 0, 1⟩ m2.d.value = _
    rw [hca, hpp, hm2d, e1d.1]
    rfl
  -- the new calculator
  have e3c : (dcEval k (dcInit k c2 false 0 1) true).h.cfg = c2 := by
    show (evalSt k.control _ true).cfg = _
    rw [evalSt_eq]
    show (basicFinal k.control 0 1 true (dcInit k c2 false 0 1).h).cfg = _
    rw [basicFinal_cfg]
    show (k.custom true c2).1 = _
    rw [h22]
  have hd3 : (dcEval k (dcInit k c2 false 0 1) true).d.value = value (rsD false 14 true).q cc [t] ∧
      (dcEval k (dcInit k c2 false 0 1) true).d.avg = k.avg c2 true ∧ (dcEval k (dcInit k c2 false 0 1) true).d.totocc = k.totocc true := by
    have hf : fastChoice k.control (dcInit k c2 false 0 1).h true = none := rfl
    have he : (dcEval k (dcInit k c2 false 0 1) true).d = fullData k c2 0 1 true (dcInit k c2 false 0 1).d := by
      show optData k (dcInit k c2 false 0 1).h true _ = _
      unfold optData
      rw [hf]
      rfl
    rw [he]
    obtain ⟨a1, -, a3, a4⟩ := hfull c2 true (dcInit k c2 false 0 1).d (Or.inr rfl) h22
    exact ⟨a1, a3, a4⟩
  intro r f
  have hrm : r = dcEval k m2 true := by rw [← hm2, ← hm1]; rfl
  have hrc : r.h.cfg = c2 := by rw [hrm]; exact e2c
  have hf : f = dcEval k (dcInit k c2 false 0 1) true := by
    show dcEval k (dcInit k r.h.cfg false 0 1) true = _
    rw [hrc]
  have hg := (rs_base false 14 true (by norm_num)).good
  obtain ⟨hq, hlo⟩ := good_par hg
  have hpi := Real.pi_gt_three
  have hhi : (1 : ℤ) < (rsD false 14 true).q.hi := by
    unfold QPar.hi
    show 1 < PDFGrid.qmaxSteps (24 * Real.pi) (Real.pi / 14)
    unfold PDFGrid.qmaxSteps
    have hpos : 0 < Real.pi / 14 := by positivity
    rw [if_neg (not_le.2 hpos)]
    have : 24 * Real.pi / (Real.pi / 14) = ((336 : ℤ) : ℝ) := by
      have : Real.pi ≠ 0 := by positivity
      field_simp
      norm_num
    rw [this, Int.ceil_intCast]
    norm_num
  have hst : sitesOf (rsStru true) = [⟨"C", 1, 1⟩, ⟨"C", 1, 1⟩, ⟨"C", 1, 1⟩, ⟨"C", 1, 1⟩] := by
    simp [sitesOf, rsStru, carbon, List.zipIdx_cons, geom, Geometry.mult]
  have htot : totalOccupancy (sitesOf (rsStru true)) = 4 := by
    rw [hst]
    norm_num [totalOccupancy]
  have hocc : totalOccupancy (sitesOf (rsStru true)) > PDFGrid.eps := by
    rw [htot]
    norm_num [PDFGrid.eps]
  have hsf : ∀ i < 4, ∀ j : ℤ, 0 ≤ j → j ≤ 1 → cc.sf i j = 1 := by
    intro i hi j h0 h1
    have := sf_atom (rsConf c0) (rsStru true) hg (hr.occ true) i hi j h0 (lt_of_le_of_lt h1 hhi)
    refine this.trans ?_
    interval_cases i <;> simp [atomFactor, rsStru, carbon, rsConf]
  have hF : ∀ tr, ∃ F, Debye.getF (k.par c2) (k.avg c2 true) (k.totocc true) (value (rsD false 14 true).q cc tr) = some F ∧
      F.getD 1 0 = (value (rsD false 14 true).q cc tr).getD 1 0 / 4 := by
    intro tr
    rw [hk.avg, hk.totocc, hcache c2 true (by tauto), hk.par]
    obtain ⟨F, h1, -, h3⟩ := getF_normalized (rsD false 14 true).q hq (sfPDF (fun _ _ => 1) (sitesOf (rsStru true))) (sitesOf (rsStru true)) tr hocc
    refine ⟨F, h1, ?_⟩
    have h4 := h3 1 (by rw [hlo]; norm_num) hhi
    have hmean : (((sitesOf (rsStru true)).zipIdx).map fun si => cc.sf si.2 ((1 : ℕ) : ℤ) * (si.1.mult : ℝ)).sum /
        totalOccupancy (sitesOf (rsStru true)) = 1 := by
      rw [htot]
      have hm : (((sitesOf (rsStru true)).zipIdx).map fun si => cc.sf si.2 ((1 : ℕ) : ℤ) * (si.1.mult : ℝ)) = [1, 1, 1, 1] := by
        clear_value cc
        rw [hst]
        have a0 := hsf 0 (by norm_num) 1 (by norm_num) (by norm_num)
        have a1 := hsf 1 (by norm_num) 1 (by norm_num) (by norm_num)
        have a2 := hsf 2 (by norm_num) 1 (by norm_num) (by norm_num)
        have a3 := hsf 3 (by norm_num) 1 (by norm_num) (by norm_num)
        simp [List.zipIdx_cons, a0, a1, a2, a3]
      rw [hm]
      norm_num
    dsimp only at h4
    rw [← hcc, hmean, if_neg one_ne_zero, htot] at h4
    rw [List.getD_eq_getElem?_getD, h4, Option.getD_some]
    norm_num
  obtain ⟨F, f1, f2⟩ := hF [t, t]
  obtain ⟨F', g1, g2⟩ := hF [t]
  refine ⟨by rw [hf, e3c, hrc], F, F', ?_, ?_, ?_, ?_⟩
  · unfold getF
    rw [hrc, hrm, hd2.1, hd2.2.1, hd2.2.2]
    exact f1
  · unfold getF
    rw [hf, e3c, hd3.1, hd3.2.1, hd3.2.2]
    exact g1
  · rw [f2, g2, (value_get _ hq _ _).2 1 (by omega), (value_get _ hq _ _).2 1 (by omega)]
    simp only [List.map_cons, List.map_nil, List.sum_cons, List.sum_nil, add_zero]
    ring
  · rw [g2, (value_get _ hq _ _).2 1 (by omega), List.map_singleton, List.sum_singleton]
    have hs1 : ∀ j : ℤ, 0 ≤ j → j ≤ 1 → 0 < sineScale (rsD false 14 true).q ⟨12, 0, 1⟩ (2 * ((1 : ℕ) : ℤ)) (cc.sf 1) (cc.sf 0) j := by
      intro j h0 h1
      unfold sineScale
      rw [hsf 1 (by norm_num) j h0 h1, hsf 0 (by norm_num) j h0 h1]
      push_cast
      positivity
    have hsin : 0 < Real.sin (((1 : ℕ) : ℝ) * (rsD false 14 true).q.qstep * 12) := by
      refine Real.sin_pos_of_pos_of_lt_pi ?_ ?_
      · show 0 < ((1 : ℕ) : ℝ) * (Real.pi / 14) * 12
        positivity
      · show ((1 : ℕ) : ℝ) * (Real.pi / 14) * 12 < Real.pi
        push_cast
        linarith
    have hadd : added (rsD false 14 true).q (cc.sf 1) (cc.sf 0) 2 ⟨12, 0, 1⟩ 1 ≠ 0 := by
      unfold added
      rw [if_pos]
      · exact mul_ne_zero (hs1 1 (by norm_num) (by norm_num)).ne' hsin.ne'
      · refine ⟨?_, by rw [hlo]; norm_num, fun j h0 h1 => ?_⟩
        · show ¬ |(12 : ℝ)| ≤ PDFGrid.eps
          norm_num [PDFGrid.eps]
        · rw [hlo] at h0
          show (0 : ℝ) < _
          exact abs_pos.2 (hs1 j h0 (by exact_mod_cast h1)).ne'
    exact div_ne_zero hadd (by norm_num)

end Verif.DebyeHist
