import Verif.Props.DebyeHistory
/-! C87: why the range must not change without the Q step.  The peaks of a structure may widen the range of a DebyePDFCalculator without a click
of the ticker; a fast update then keeps the contributions summed in the narrower range. -/
set_option linter.unnecessarySeqFocus false
namespace Verif.DebyeHist
open Verif.Eval Verif.Diff Verif.KindDiff Verif.History Verif.Debye Verif.Setters Verif.R3 Verif.Lattice Verif.Geo
open Verif.PDFHist (POp sitesOf)
open Verif.PDFGrid (rminSteps rmaxSteps)

/-- A carbon atom with the displacement parameter `u`. -/
def carbon (x z u : ℚ) : Atom := ⟨"C", x, 0, z, 1, false, ⟨u, 0, 0, 0, u, 0, 0, 0, u⟩⟩

/-- Two atoms 11 apart and two far away, the last of which vibrates more in `staleStru true`. -/
def staleStru (b : Bool) : RStru := ⟨.atomic, [carbon 0 0 0, carbon 11 0 0, carbon 0 1000 0, carbon 0 (-1000) (if b then 1 else 0)]⟩

/-- Range 0 to 9, Q step π/24 set by the user, range of the last evaluation up to `n`. -/
noncomputable def staleD (n : ℤ) : D :=
  { q := ⟨0, 24 * Real.pi, Real.pi / 24, 0⟩, qminpdf := 0, rmin := 0, rmax := 9, rstep := 1, maxext := 10,
    optimum := false, clo := 0, chi := n, cached := true, clicks := 0 }

noncomputable def staleConf (n : {n : ℤ // 0 ≤ n ∧ n ≤ 20}) : DCfg := ⟨staleD n.1, fun _ _ => 1, fun _ _ _ _ => 0, fun _ _ _ _ => true⟩

/-- The peaks of the second structure reach two further. -/
noncomputable def staleTails (b : Bool) : ℝ := if b then 5 / 2 else 1 / 2

/-- The upper limit for the structure. -/
def staleHi (b : Bool) (n : ℤ) : ℤ := if (if b then 12 else 10) > n then (if b then 12 else 10) else n

theorem stale_cache (b : Bool) (n : ℤ) (h : n ≤ 20) : cacheRlimits (fun _ _ => staleTails b) (staleD n) = staleD (staleHi b n) := by
  have hpi := Real.pi_pos
  have hr : (staleD n).ripples = 1 / 2 := by
    unfold D.ripples
    have : (staleD n).q.qmax > 0 := by show 24 * Real.pi > 0; positivity
    rw [if_pos this]
    show 6 * 2 * Real.pi / (24 * Real.pi) = 1 / 2
    field_simp
    norm_num
  have he : D.ext (fun _ _ => staleTails b) (staleD n) = if b then 3 else 1 := by
    unfold D.ext
    rw [hr]
    show min (10 : ℝ) (1 / 2 + staleTails b) = _
    unfold staleTails
    cases b <;> norm_num
  have hn : rmaxSteps ((staleD n).rmax + D.ext (fun _ _ => staleTails b) (staleD n)) (staleD n).rstep = if b then 12 else 10 := by
    rw [he]
    unfold rmaxSteps
    show ⌈((9 : ℝ) + _) / 1⌉ = _
    cases b
    · have : ((9 : ℝ) + if false = true then 3 else 1) / 1 = ((10 : ℤ) : ℝ) := by norm_num
      rw [this, Int.ceil_intCast]; rfl
    · have : ((9 : ℝ) + if true = true then 3 else 1) / 1 = ((12 : ℤ) : ℝ) := by norm_num
      rw [this, Int.ceil_intCast]; rfl
  have hl : max 0 (rminSteps ((staleD n).rmin - D.ext (fun _ _ => staleTails b) (staleD n)) (staleD n).rstep) = 0 := by
    refine max_eq_left ?_
    rw [he]
    have hc0 : ⌈((staleD n).rmin - if b then 3 else 1) / (staleD n).rstep⌉ ≤ 0 := by
      rw [Int.ceil_le]
      show ((0 : ℝ) - if b then 3 else 1) / 1 ≤ _
      cases b <;> norm_num
    generalize ((staleD n).rmin - if b then 3 else 1) = y at hc0
    unfold rminSteps
    dsimp only
    split
    · omega
    · exact hc0
  unfold cacheRlimits
  dsimp only
  rw [hn, hl]
  have hch : (if (if b then (12 : ℤ) else 10) ≤ (staleD n).chi - 50 ∨ (if b then (12 : ℤ) else 10) > (staleD n).chi then
      (if b then (12 : ℤ) else 10) else (staleD n).chi) = staleHi b n := by
    show (if (if b then (12 : ℤ) else 10) ≤ n - 50 ∨ (if b then (12 : ℤ) else 10) > n then (if b then (12 : ℤ) else 10) else n) = _
    unfold staleHi
    cases b
    · simp only [Bool.false_eq_true, if_false]
      split
      · next h1 => rw [if_pos (by omega)]
      · next h1 => rw [if_neg (by omega)]
    · simp only [if_true]
      split
      · next h1 => rw [if_pos (by omega)]
      · next h1 => rw [if_neg (by omega)]
  rw [hch]
  rfl

theorem staleHi_range (b : Bool) (n : ℤ) (h : 0 ≤ n ∧ n ≤ 20) : 10 ≤ staleHi b n ∧ staleHi b n ≤ 20 ∧ (b = true → 12 ≤ staleHi b n) := by
  unfold staleHi
  cases b
  · simp only [Bool.false_eq_true, if_false]
    split <;> simp <;> omega
  · simp only [if_true]
    split <;> simp <;> omega

/-- `resetValue` changes the range of such a calculator, never the Q step, and does not click the ticker. -/
theorem stale_reset (b : Bool) (n : ℤ) (h : 0 ≤ n ∧ n ≤ 20) :
    dstep (fun _ _ => staleTails b) (staleD n) .reset = .ok (staleD (staleHi b n)) := by
  have hpi := Real.pi_pos
  have hh := staleHi_range b n h
  show updateQstep _ (cacheRlimits _ (staleD n)) = _
  rw [stale_cache b n h.2, updateQstep_eq]
  have he : ensureCached (fun _ _ => staleTails b) (staleD (staleHi b n)) = staleD (staleHi b n) := rfl
  rw [he]
  dsimp only
  have h1 : (10 : ℝ) ≤ (staleHi b n : ℝ) := by exact_mod_cast hh.1
  have h2 : (staleHi b n : ℝ) ≤ 20 := by exact_mod_cast hh.2.1
  have hr : (staleD (staleHi b n)).rcalchi = (staleHi b n : ℝ) := by
    show (staleHi b n : ℝ) * 1 = _
    ring
  have ho : (staleD (staleHi b n)).oqstep = Real.pi / (staleHi b n : ℝ) := by
    unfold D.oqstep
    rw [hr]
    rw [if_pos]
    show 24 * Real.pi * (staleHi b n : ℝ) / Real.pi > 4
    rw [gt_iff_lt, lt_div_iff₀ hpi]
    nlinarith
  have hlt : ¬ ((staleD (staleHi b n)).oqstep ≤ (staleD (staleHi b n)).q.qstep ∨ (staleD (staleHi b n)).optimum = true) := by
    rintro (h3 | h3)
    · rw [ho] at h3
      change Real.pi / (staleHi b n : ℝ) ≤ Real.pi / 24 at h3
      rw [div_le_div_iff₀ (by linarith) (by norm_num)] at h3
      nlinarith
    · cases h3
  rw [if_neg hlt]

/-- All pairs but the first two atoms are out of any range up to 20. -/
theorem stale_far (b : Bool) (lo hi : ℝ) (hhi : hi ≤ 20) (i j : ℕ) (h1 : i < 4) (h2 : j < 4)
    (hne : ((i = 0 ∧ j = 1) ∨ (i = 1 ∧ j = 0)) → hi < 11) : vecs (geom (staleStru b)) lo hi i j = [] := by
  have hs := (vecs_spec (geom (staleStru b)) trivial lo hi i j h1 h2).2
  refine List.eq_nil_iff_forall_not_mem.2 fun v hv => ?_
  obtain ⟨hv, hr⟩ := (hs v).1 hv
  change v = V3.sub (posOf (staleStru b).atoms j) (posOf (staleStru b).atoms i) at hv
  obtain ⟨-, r2, r3⟩ := hr
  have hn : ∀ w : V3, w.x = 0 → w.y = 0 → w.z = 0 → V3.norm w = 0 := by
    intro w a1 a2 a3
    unfold V3.norm V3.dot
    rw [a1, a2, a3]
    norm_num
  have hp : 0 < V3.norm v := lt_trans (by norm_num) r3
  have hc : (v.x = 0 ∧ v.y = 0 ∧ v.z = 0) ∨ (((i = 0 ∧ j = 1) ∨ (i = 1 ∧ j = 0)) ∧ |v.x| = 11) ∨ 1000 ≤ |v.z| := by
    interval_cases i <;> interval_cases j <;>
      simp only [posOf, staleStru, carbon, List.getElem?_cons_zero, List.getElem?_cons_succ, Option.map_some, Option.getD_some, atomPos, V3.sub] at hv <;>
      rw [hv] <;> norm_num
  rcases hc with ⟨a1, a2, a3⟩ | ⟨a1, a2⟩ | a1
  · rw [hn v a1 a2 a3] at hp
    exact lt_irrefl _ hp
  · have := V3.abs_x_le v
    have := hne a1
    linarith
  · have := V3.abs_z_le v
    linarith

/-- The bond of the first two atoms. -/
theorem stale_near (b : Bool) (hi : ℝ) (hhi : 11 ≤ hi) : ∃ v : V3, V3.norm v = 11 ∧ vecs (geom (staleStru b)) 0 hi 1 0 = [v] := by
  have hs := vecs_spec (geom (staleStru b)) trivial 0 hi 1 0 (by show 1 < 4; norm_num) (by show 0 < 4; norm_num)
  have hn : V3.norm ⟨-11, 0, 0⟩ = 11 := by
    unfold V3.norm V3.dot
    have : (-11 : ℝ) * -11 + 0 * 0 + 0 * 0 = 11 ^ 2 := by norm_num
    rw [this, Real.sqrt_sq (by norm_num)]
  have hv : ∀ v, (geom (staleStru b)).IsVec 1 0 v ↔ v = ⟨-11, 0, 0⟩ := by
    intro v
    show v = V3.sub (posOf (staleStru b).atoms 0) (posOf (staleStru b).atoms 1) ↔ _
    simp only [posOf, staleStru, carbon, List.getElem?_cons_zero, List.getElem?_cons_succ, Option.map_some, Option.getD_some, atomPos, V3.sub]
    norm_num
  refine ⟨⟨-11, 0, 0⟩, hn, ?_⟩
  refine List.perm_singleton.1 ((List.perm_ext_iff_of_nodup hs.1 (List.nodup_singleton _)).2 fun v => ?_)
  rw [hs.2 v, hv v, List.mem_singleton]
  refine ⟨fun h => h.1, fun h => ⟨h, ?_⟩⟩
  rw [h, hn]
  exact ⟨by norm_num, hhi, by norm_num⟩

theorem stale_good (n : ℤ) (h : 0 ≤ n) : (staleD n).Good := by
  have hpi := Real.pi_gt_three
  refine ⟨rfl, le_refl _, ?_, ?_, le_refl _, ?_, ?_, ?_, le_refl _, h⟩
  · show 0 ≤ 24 * Real.pi
    positivity
  · show (1 : ℝ) / 2 ^ 26 < Real.pi / 24
    rw [lt_div_iff₀ (by norm_num)]
    norm_num
    linarith
  · show (0 : ℝ) ≤ 9
    norm_num
  · show (1 : ℝ) / 2 ^ 26 < 1
    norm_num
  · show (0 : ℝ) ≤ 10
    norm_num

/-- A calculator for these structures. -/
theorem stale_exists (s : Sorter) : ∃ k : Cls {n : ℤ // 0 ≤ n ∧ n ≤ 20} Bool,
    IsDebyeCalculator s staleConf staleStru (fun _ b _ _ => staleTails b) k ∧ Usable staleConf staleStru (fun _ b _ _ => staleTails b) k := by
  have hinj : Function.Injective staleConf := by
    intro a b h
    refine Subtype.ext ?_
    exact congrArg (fun c : DCfg => c.d.chi) h
  obtain ⟨k, hk, h2⟩ := calculator_exists s staleConf staleStru (fun _ b _ _ => staleTails b) (fun _ => false)
    (fun b c => (⟨staleHi b c.1, by have := staleHi_range b c.1 c.2; omega⟩, false)) (fun b c h => hinj h)
    (fun b c => ⟨_, stale_reset b c.1 c.2, rfl, rfl⟩) (fun _ _ _ => rfl)
  refine ⟨k, hk, ⟨fun x y _ => trivial, fun x => trivial, ?_, fun c => stale_good _ c.2.1, ?_, ?_, ?_, fun _ _ _ _ _ => rfl, fun _ _ _ _ _ _ _ _ => rfl⟩⟩
  · intro x s hs t ht _
    simp only [sitesOf, staleStru, carbon, List.zipIdx_cons, List.zipIdx_nil, List.map_cons, List.map_nil, List.mem_cons, List.not_mem_nil, or_false] at hs ht
    rcases hs with rfl | rfl | rfl | rfl <;> rcases ht with rfl | rfl | rfl | rfl <;> rfl
  · intro c b _ _
    show 0 ≤ staleTails b
    unfold staleTails
    cases b <;> norm_num
  · intro c x
    exact Or.inr fun i j _ _ => rfl
  · intro c x lo hi
    exact Debye.reciprocal_distance (geom (staleStru x)) trivial lo hi (fun _ _ _ => 0) (fun _ _ _ => rfl)

/-- **C87, defect**. A DebyePDFCalculator with a Q step set by the user evaluates a structure, then the same structure with one atom, far from all others, that
vibrates more: the range grows from 10 to 12 without a click, the fast update does not see the pair at distance 11, and F(Q) is zero; a new
calculator with the same parameters finds another F(Q) for the same structure. -/
theorem stale_range_bug (s : Sorter) : ∃ k : Cls {n : ℤ // 0 ≤ n ∧ n ≤ 20} Bool,
    IsDebyeCalculator s staleConf staleStru (fun _ b _ _ => staleTails b) k ∧ Usable staleConf staleStru (fun _ b _ _ => staleTails b) k ∧
      let r := dcEval k (dcRun k (dcInit k ⟨10, by norm_num⟩ false 0 1) [.eval false]) true
      let f := dcEval k (dcInit k r.h.cfg false 0 1) true
      f.h.cfg = r.h.cfg ∧ (∃ F, getF k r = some F ∧ F.getD 1 0 = 0) ∧ ∃ F, getF k f = some F ∧ F.getD 1 0 ≠ 0 := by
  obtain ⟨k, hk, hr⟩ := stale_exists s
  refine ⟨k, hk, hr, ?_⟩
  have hcus : ∀ b c, ∃ h, k.custom b c = (⟨staleHi b c.1, h⟩, false) := by
    intro b c
    obtain ⟨d', h1, h2, h3⟩ := hk.reset b c
    have h1' := (stale_reset b c.1 c.2).symm.trans h1
    cases h1'
    refine ⟨by have := staleHi_range b c.1 c.2; omega, ?_⟩
    rw [hk.custom]
    refine Prod.ext ?_ ?_
    · refine Subtype.ext ?_
      exact congrArg (fun c : DCfg => c.d.chi) h2
    · rw [h3]
      exact decide_eq_false fun h => h rfl
  have h10 : k.custom false ⟨10, by norm_num⟩ = (⟨10, by norm_num⟩, false) := (hcus false ⟨10, by norm_num⟩).choose_spec
  have h12 : k.custom true ⟨10, by norm_num⟩ = (⟨12, by norm_num⟩, false) := (hcus true ⟨10, by norm_num⟩).choose_spec
  have h12' : k.custom true ⟨12, by norm_num⟩ = (⟨12, by norm_num⟩, false) := (hcus true ⟨12, by norm_num⟩).choose_spec
  have hclo : ∀ c, (staleConf c).d.rcalclo = 0 := by
    intro c
    show ((0 : ℤ) : ℝ) * 1 = 0
    norm_num
  have hchi : ∀ c, (staleConf c).d.rcalchi = (c.1 : ℝ) := by
    intro c
    show (c.1 : ℝ) * 1 = _
    ring
  have hfar : ∀ c b i sel, i < 4 → (∀ j ∈ sel, j < 4) → (∀ j ∈ sel, ((i = 0 ∧ j = 1) ∨ (i = 1 ∧ j = 0)) → (c.1 : ℝ) < 11) →
      k.gen c b i sel = [] := by
    intro c b i sel hi hsel h
    have hp := gen_spec hk hr c b rfl i sel
    have h0 : (sel.flatMap fun j => ((vecs (geom (staleStru b)) (staleConf c).d.rcalclo (staleConf c).d.rcalchi i j).map
        fun v => (⟨V3.norm v, (staleConf c).W (staleStru b) i j v, (geom (staleStru b)).mult i⟩ : Bond)).map fun b => (j, b)) = [] := by
      rw [List.flatMap_eq_nil_iff]
      intro j hj
      have : (c.1 : ℝ) ≤ 20 := by exact_mod_cast c.2.2
      rw [stale_far b _ _ (by rw [hchi]; exact this) i j hi (hsel j hj) (by rw [hchi]; exact h j hj)]
      rfl
    have h1 : (k.gen c b i sel).Perm [] := hp.trans (List.Perm.of_eq h0)
    exact List.perm_nil.1 h1
  have hnear : ∃ w, k.gen ⟨12, by norm_num⟩ true 1 [0, 1] = [(0, ⟨11, w, 1⟩)] := by
    have hp := gen_spec hk hr ⟨12, by norm_num⟩ true rfl 1 [0, 1]
    obtain ⟨v, hv, hvs⟩ := stale_near true 12 (by norm_num)
    have hc : (staleConf ⟨12, by norm_num⟩).d.rcalchi = 12 := by rw [hchi]; norm_num
    have h0 : ([0, 1].flatMap fun j => ((vecs (geom (staleStru true)) (staleConf ⟨12, by norm_num⟩).d.rcalclo (staleConf ⟨12, by norm_num⟩).d.rcalchi 1 j).map
        fun v => (⟨V3.norm v, (staleConf ⟨12, by norm_num⟩).W (staleStru true) 1 j v, (geom (staleStru true)).mult 1⟩ : Bond)).map fun b => (j, b)) =
        [(0, ⟨11, 0, 1⟩)] := by
      rw [List.flatMap_cons, List.flatMap_cons, List.flatMap_nil, hc, hclo, hvs,
        stale_far true 0 12 (by norm_num) 1 1 (by norm_num) (by norm_num) (by norm_num)]
      show [(0, (⟨V3.norm v, 0, 1⟩ : Bond))] = _
      rw [hv]
    exact ⟨0, List.perm_singleton.1 (hp.trans (List.Perm.of_eq h0))⟩
  have hall : ∀ x i, i < 4 → ∀ sel : List ℕ, (∀ j ∈ sel, j < 4) → k.gen ⟨10, by norm_num⟩ x i sel = [] :=
    fun x i hi sel hsel => hfar _ x i sel hi hsel fun _ _ _ => by norm_num
  have hcnt : ∀ b, k.count b = 4 := fun b => hk.count b
  have huse : ∀ c b, k.use c b = fun _ _ => true := by
    intro c b
    funext i j
    exact hk.use c b i j
  have hdiff : k.diff false true = ⟨4, 4, [3], [3], .sideBySide⟩ := by
    rw [hk.diff]
    rfl
  -- the first evaluation
  have e1h : (dcEval k (dcInit k ⟨10, by norm_num⟩ false 0 1) false).h =
      ⟨1, 0, 1, some false, false, ⟨10, by norm_num⟩, (), (), (), .optimized, .basic, 0, 1⟩ := by
    show evalSt k.control _ false = _
    rw [evalSt_eq]
    show setLast (basicFinal k.control 0 1 false (dcInit k ⟨10, by norm_num⟩ false 0 1).h) = _
    unfold basicFinal setStru
    have hc : k.control.custom false (setUsed .basic (dcInit k ⟨10, by norm_num⟩ false 0 1).h).cfg = (⟨10, by norm_num⟩, false) := h10
    rw [hc]
    rfl
  have e1d : (dcEval k (dcInit k ⟨10, by norm_num⟩ false 0 1) false).d.value = List.replicate (k.par ⟨10, by norm_num⟩).hi.toNat 0 := by
    show (optData k (dcInit k ⟨10, by norm_num⟩ false 0 1).h false _).value = _
    have hf : fastChoice k.control (dcInit k ⟨10, by norm_num⟩ false 0 1).h false = none := rfl
    unfold optData
    rw [hf]
    show (fullData k ⟨10, by norm_num⟩ 0 1 false _).value = _
    unfold fullData
    rw [h10, hcnt]
    dsimp only
    rw [huse]
    have ht : basicTrace (k.rule 4 1) (k.gen ⟨10, by norm_num⟩ false) false (fun _ _ => true) 4 0 1 = [] := by
      simp [basicTrace, basicLoop, List.range_succ, hall, innerLoop]
    rw [ht]
    rfl
  -- the second evaluation
  have hskip : skips 0 1 = false := rfl
  generalize hm1 : dcEval k (dcInit k ⟨10, by norm_num⟩ false 0 1) false = m1 at e1h e1d
  have hfc : fastChoice k.control m1.h true = some (false, ⟨4, 4, [3], [3], .sideBySide⟩) := by
    rw [e1h]
    unfold fastChoice
    show (if (0 : ℕ) ≥ 1 then none else if !(k.diff false true).allowsFast then none else
      if (false || k.hasPairMask _) && decide ((k.diff false true).method ≠ .sideBySide) then none else some (false, k.diff false true)) = _
    rw [hdiff]
    simp
    rfl
  have htick : (setStru k.control true m1.h).pqTick = 0 := by
    rw [e1h]
    unfold setStru
    have hc : k.control.custom true (⟨10, by norm_num⟩ : {n : ℤ // 0 ≤ n ∧ n ≤ 20}) = (⟨12, by norm_num⟩, false) := h12
    dsimp only
    rw [hc]
    rfl
  have hval1 : m1.h.valTick = 1 := by rw [e1h]
  have hcfg1 : m1.h.cfg = ⟨10, by norm_num⟩ := by rw [e1h]
  have hev1 : m1.h.evtype = .optimized := by rw [e1h]
  have hcpu : m1.h.cpuindex = 0 ∧ m1.h.ncpu = 1 ∧ m1.h.cur = false := by rw [e1h]; exact ⟨rfl, rfl, rfl⟩
  have e2c : (dcEval k m1 true).h.cfg = ⟨12, by norm_num⟩ := by
    show (evalSt k.control m1.h true).cfg = _
    rw [evalSt_eq, hev1]
    dsimp only
    unfold optFinal
    rw [hfc]
    dsimp only
    rw [htick, hval1, if_neg (by norm_num)]
    show (midFast k.control false true _ (setUsed .optimized m1.h)).cfg = _
    rw [midFast_cfg]
    show (k.custom true m1.h.cfg).1 = _
    rw [hcfg1, h12]
  have hd2 : (dcEval k m1 true).d = (restorePartialValue (resetValue k ⟨12, by norm_num⟩ true (stashPartialValue m1.d))) := by
    show evalData k m1.h true m1.d = _
    unfold evalData
    rw [hev1]
    show optData k m1.h true m1.d = _
    unfold optData
    rw [hfc]
    dsimp only
    rw [htick, hval1, if_neg (by norm_num), hcfg1, h12, hcpu.1, hcpu.2.1, hcnt, hcnt, huse, huse]
    have hrem : (removeTrace (k.gen ⟨10, by norm_num⟩ false) false (fun _ _ => true) 4 [3] 0 1).2 = [] := by
      have hg := hall false 3 (by norm_num) [3, 0, 1, 2] (by simp)
      simp [removeTrace, complementaryIndices, complLoop, List.range_succ, removeLoop, hg, innerLoop]
    have hadd : ∀ n, addTrace (k.gen ⟨12, by norm_num⟩ true) false (fun _ _ => true) 4 [3] n 1 = [] := by
      intro n
      have hg := hfar ⟨12, by norm_num⟩ true 3 [0, 1, 2, 3] (by norm_num) (by simp) (by simp)
      simp [Eval.addTrace, complementaryIndices, complLoop, List.range_succ, addLoop, hg, innerLoop]
    rw [hrem, hadd]
    rfl
  -- the new calculator
  have e3c : (dcEval k (dcInit k ⟨12, by norm_num⟩ false 0 1) true).h.cfg = ⟨12, by norm_num⟩ := by
    show (evalSt k.control _ true).cfg = _
    rw [evalSt_eq]
    show (basicFinal k.control 0 1 true (dcInit k ⟨12, by norm_num⟩ false 0 1).h).cfg = _
    rw [basicFinal_cfg]
    show (k.custom true ⟨12, _⟩).1 = _
    rw [h12']
  obtain ⟨w, hw⟩ := hnear
  have hd3 : (dcEval k (dcInit k ⟨12, by norm_num⟩ false 0 1) true).d =
      addBond k ⟨12, by norm_num⟩ (resetValue k ⟨12, by norm_num⟩ true (dcInit k ⟨12, by norm_num⟩ false 0 1).d) ⟨1, 0, 2, ⟨11, w, 1⟩⟩ := by
    show optData k (dcInit k ⟨12, by norm_num⟩ false 0 1).h true _ = _
    have hf : fastChoice k.control (dcInit k ⟨12, by norm_num⟩ false 0 1).h true = none := rfl
    unfold optData
    rw [hf]
    show fullData k ⟨12, by norm_num⟩ 0 1 true _ = _
    unfold fullData
    rw [h12', hcnt]
    dsimp only
    rw [huse]
    have g0 := hfar ⟨12, by norm_num⟩ true 0 [0] (by norm_num) (by simp) (by simp)
    have g2 := hfar ⟨12, by norm_num⟩ true 2 [0, 1, 2] (by norm_num) (by simp) (by simp)
    have g3 := hfar ⟨12, by norm_num⟩ true 3 [0, 1, 2, 3] (by norm_num) (by simp) (by simp)
    have ht : basicTrace (k.rule 4 1) (k.gen ⟨12, by norm_num⟩ true) false (fun _ _ => true) 4 0 1 = [⟨1, 0, 2, ⟨11, w, 1⟩⟩] := by
      simp [basicTrace, basicLoop, List.range_succ, g0, g2, g3, hw, innerLoop, sumScale]
    rw [ht]
    rfl
  intro r f
  have hrm : r = dcEval k m1 true := by rw [← hm1]; rfl
  have hrc : r.h.cfg = ⟨12, by norm_num⟩ := by rw [hrm]; exact e2c
  have hf : f = dcEval k (dcInit k ⟨12, by norm_num⟩ false 0 1) true := by
    show dcEval k (dcInit k r.h.cfg false 0 1) true = _
    rw [hrc]
  have hg := stale_good 12 (by norm_num)
  obtain ⟨hq, hlo⟩ := good_par hg
  have hpi := Real.pi_gt_three
  have hhi : (1 : ℤ) < (staleD 12).q.hi := by
    unfold QPar.hi
    show 1 < PDFGrid.qmaxSteps (24 * Real.pi) (Real.pi / 24)
    unfold PDFGrid.qmaxSteps
    have hpos : 0 < Real.pi / 24 := by positivity
    rw [if_neg (not_le.2 hpos)]
    have : 24 * Real.pi / (Real.pi / 24) = ((576 : ℤ) : ℝ) := by
      have : Real.pi ≠ 0 := by positivity
      field_simp
      norm_num
    rw [this, Int.ceil_intCast]
    norm_num
  have hst : sitesOf (staleStru true) = [⟨"C", 1, 1⟩, ⟨"C", 1, 1⟩, ⟨"C", 1, 1⟩, ⟨"C", 1, 1⟩] := by
    simp [sitesOf, staleStru, carbon, List.zipIdx_cons, geom, Geometry.mult]
  have htot : totalOccupancy (sitesOf (staleStru true)) = 4 := by
    rw [hst]
    norm_num [totalOccupancy]
  have hocc : totalOccupancy (sitesOf (staleStru true)) > PDFGrid.eps := by
    rw [htot]
    norm_num [PDFGrid.eps]
  have hsf : ∀ i < 4, ∀ j : ℤ, 0 ≤ j → j ≤ 1 →
      (cacheOf (staleD 12).q (sfPDF (fun _ _ => 1) (sitesOf (staleStru true))) (sitesOf (staleStru true))).sf i j = 1 := by
    intro i hi j h0 h1
    have := sf_atom (staleConf ⟨12, by norm_num⟩) (staleStru true) hg (hr.occ true) i hi j h0 (lt_of_le_of_lt h1 hhi)
    refine this.trans ?_
    interval_cases i <;> simp [atomFactor, staleStru, carbon, staleConf]
  have hF : ∀ tr, ∃ F, Debye.getF (k.par ⟨12, by norm_num⟩) (k.avg ⟨12, by norm_num⟩ true) (k.totocc true)
      (value (k.par ⟨12, by norm_num⟩) (k.cache ⟨12, by norm_num⟩ true) tr) = some F ∧
      F.getD 1 0 = (value (k.par ⟨12, by norm_num⟩) (k.cache ⟨12, by norm_num⟩ true) tr).getD 1 0 / 4 := by
    intro tr
    rw [hk.avg, hk.totocc, hk.cache, hk.par]
    obtain ⟨F, h1, -, h3⟩ := getF_normalized (staleD 12).q hq (sfPDF (fun _ _ => 1) (sitesOf (staleStru true))) (sitesOf (staleStru true)) tr hocc
    refine ⟨F, h1, ?_⟩
    have h4 := h3 1 (by rw [hlo]; norm_num) hhi
    have hmean : (((sitesOf (staleStru true)).zipIdx).map fun si =>
        (cacheOf (staleD 12).q (sfPDF (fun _ _ => 1) (sitesOf (staleStru true))) (sitesOf (staleStru true))).sf si.2 ((1 : ℕ) : ℤ) * (si.1.mult : ℝ)).sum /
        totalOccupancy (sitesOf (staleStru true)) = 1 := by
      rw [htot]
      have hm : (((sitesOf (staleStru true)).zipIdx).map fun si =>
        (cacheOf (staleD 12).q (sfPDF (fun _ _ => 1) (sitesOf (staleStru true))) (sitesOf (staleStru true))).sf si.2 ((1 : ℕ) : ℤ) * (si.1.mult : ℝ)) =
          [1, 1, 1, 1] := by
        generalize hcc : cacheOf (staleD 12).q (sfPDF (fun _ _ => 1) (sitesOf (staleStru true))) (sitesOf (staleStru true)) = cc at hsf ⊢
        rw [hst]
        have a0 := hsf 0 (by norm_num) 1 (by norm_num) (by norm_num)
        have a1 := hsf 1 (by norm_num) 1 (by norm_num) (by norm_num)
        have a2 := hsf 2 (by norm_num) 1 (by norm_num) (by norm_num)
        have a3 := hsf 3 (by norm_num) 1 (by norm_num) (by norm_num)
        simp [List.zipIdx_cons, a0, a1, a2, a3]
      rw [hm]
      norm_num
    dsimp only at h4
    rw [hmean, if_neg one_ne_zero, htot] at h4
    rw [List.getD_eq_getElem?_getD, h4, Option.getD_some]
    show _ / (1 ^ 2 * 4) = _
    norm_num
    rfl
  have hp12 : k.par ⟨12, by norm_num⟩ = (staleD 12).q := hk.par _
  refine ⟨by rw [hf, e3c, hrc], ?_, ?_⟩
  · obtain ⟨F, h1, h2⟩ := hF []
    refine ⟨F, ?_, ?_⟩
    · unfold getF
      rw [hrc, hrm, hd2]
      show Debye.getF _ (k.avg _ true) (k.totocc true) m1.d.value = _
      have hpp : k.par ⟨10, by norm_num⟩ = k.par ⟨12, by norm_num⟩ := by rw [hk.par, hk.par]; rfl
      rw [e1d, hpp]
      exact h1
    · rw [h2]
      show (List.replicate _ (0 : ℝ)).getD 1 0 / 4 = 0
      rw [getD_replicate, zero_div]
  · obtain ⟨F, h1, h2⟩ := hF [⟨1, 0, 2, ⟨11, w, 1⟩⟩]
    refine ⟨F, ?_, ?_⟩
    · unfold getF
      rw [hf, e3c, hd3]
      exact h1
    · rw [h2, hp12, (value_get (staleD 12).q hq _ _).2 1 (by omega), List.map_singleton, List.sum_singleton, hk.cache]
      have hs1 : ∀ j : ℤ, 0 ≤ j → j ≤ 1 → 0 < sineScale (staleD 12).q ⟨11, w, 1⟩ (2 * ((1 : ℕ) : ℤ))
          ((cacheOf (staleD 12).q (sfPDF (fun _ _ => 1) (sitesOf (staleStru true))) (sitesOf (staleStru true))).sf 1)
          ((cacheOf (staleD 12).q (sfPDF (fun _ _ => 1) (sitesOf (staleStru true))) (sitesOf (staleStru true))).sf 0) j := by
        intro j h0 h1
        unfold sineScale
        rw [hsf 1 (by norm_num) j h0 h1, hsf 0 (by norm_num) j h0 h1]
        push_cast
        positivity
      have hsin : 0 < Real.sin (((1 : ℕ) : ℝ) * (staleD 12).q.qstep * 11) := by
        refine Real.sin_pos_of_pos_of_lt_pi ?_ ?_
        · show 0 < ((1 : ℕ) : ℝ) * (Real.pi / 24) * 11
          positivity
        · show ((1 : ℕ) : ℝ) * (Real.pi / 24) * 11 < Real.pi
          push_cast
          linarith
      have hadd : added (staleD 12).q
          ((cacheOf (staleD 12).q (sfPDF (fun _ _ => 1) (sitesOf (staleStru true))) (sitesOf (staleStru true))).sf 1)
          ((cacheOf (staleD 12).q (sfPDF (fun _ _ => 1) (sitesOf (staleStru true))) (sitesOf (staleStru true))).sf 0) 2 ⟨11, w, 1⟩ 1 ≠ 0 := by
        unfold added
        rw [if_pos]
        · exact mul_ne_zero (hs1 1 (by norm_num) (by norm_num)).ne' hsin.ne'
        · refine ⟨?_, by rw [hlo]; norm_num, fun j h0 h1 => ?_⟩
          · show ¬ |(11 : ℝ)| ≤ PDFGrid.eps
            norm_num [PDFGrid.eps]
          · rw [hlo] at h0
            show (0 : ℝ) < _
            exact abs_pos.2 (hs1 j h0 (by exact_mod_cast h1)).ne'
      exact div_ne_zero hadd (by norm_num)

end Verif.DebyeHist
