import Verif.Props.AmountsBV
import Verif.Props.SameBonds
import Verif.Props.StaleReads
/-! C100: a wider range does not change the results within the narrower one. -/
set_option linter.unusedSectionVars false

namespace Verif.BondCalc
open Verif.BondGen Verif.Eval Verif.R3 Verif.Lattice Verif.Diff Verif.KindDiff Verif.History Verif.Geo

/-- **C100** for bonds: the list of a calculator with the range narrowed, on either side, is the part of the list of the other within the range, in the same
order. -/
theorem bonds_range_partial (cls : Kind Lat Sym → Prop) (hcls : ∀ a b, cls a → cls b → SameClass a b) (s : Sorter)
    (k : Cls BCfg (SStru cls) ℝ) (hk : IsBondCalculator cls s k) (fill : Entry ℝ) (c c' : BCfg) (e e' : SStru cls) (ops ops' : List (BOp BCfg (SStru cls)))
    (ha : ∀ op ∈ ops, BAllowed op) (ha' : ∀ op ∈ ops', BAllowed op)
    (ht : taintAfter k.calc (bcInit (R := ℝ) c e).h false (ops.map BOp.op) = false)
    (ht' : taintAfter k.calc (bcInit (R := ℝ) c' e').h false (ops'.map BOp.op) = false) (y : SStru cls) (lo hi : ℝ) :
    let r := bcEval k fill (bcRun k fill (bcInit c e) ops) y
    let r' := bcEval k fill (bcRun k fill (bcInit c' e') ops') y
    r'.h.cfg = { r.h.cfg with rmin := lo, rmax := hi } → r.h.cfg.rmin ≤ lo → hi ≤ r.h.cfg.rmax →
    r'.d.bonds = r.d.bonds.filter (fun b => decide (lo ≤ b.distance ∧ b.distance ≤ hi)) ∧
    r'.d.value = r.d.value.filter (fun d => decide (lo ≤ d ∧ d ≤ hi)) := by
  intro r r' hcf hlo hhi
  obtain ⟨a1, a2, a3, a4⟩ := bond_history_partial cls hcls s k hk fill c e ops ha ht y
  obtain ⟨b1, b2, b3, b4⟩ := bond_history_partial cls hcls s k hk fill c' e' ops' ha' ht' y
  have hcf : (bcEval k fill (bcRun k fill (bcInit c' e') ops') y).h.cfg = { r.h.cfg with rmin := lo, rmax := hi } := hcf
  rw [hcf] at b4
  have hb : r'.d.bonds = r.d.bonds.filter (fun b => decide (lo ≤ b.distance ∧ b.distance ≤ hi)) := by
    refine sorted_unique b1 (List.Pairwise.filter _ a1) ((List.perm_ext_iff_of_nodup b2 (a2.filter _)).2 fun b => ?_)
    rw [List.mem_filter]
    rw [show b ∈ r.d.bonds ↔ _ from a4 b, b4 b, decide_eq_true_eq]
    unfold IsBond InRange
    constructor
    · rintro ⟨h1, h2, h3, h4, ⟨h5, h6, h7⟩, h8, h9⟩
      exact ⟨⟨h1, h2, h3, h4, ⟨le_trans hlo h5, le_trans h6 hhi, h7⟩, h8, h9⟩, by rw [h8]; exact h5, by rw [h8]; exact h6⟩
    · rintro ⟨⟨h1, h2, h3, h4, ⟨-, -, h7⟩, h8, h9⟩, h5, h6⟩
      exact ⟨h1, h2, h3, h4, ⟨by rw [← h8]; exact h5, by rw [← h8]; exact h6, h7⟩, h8, h9⟩
  refine ⟨hb, ?_⟩
  have e1 : r'.d.value = distances r'.d := b3
  have e2 : r.d.value = distances r.d := a3
  rw [e1, e2]
  unfold distances
  rw [hb, List.filter_map]
  rfl

/-- The pair of ions with the range from 1 to 3, in a new calculator and in one with the range set after another evaluation. -/
example (s : Sorter) (fill : Entry ℝ) (c : BCfg) (h1 : c.rmin = 0) (h2 : c.rmax = 5) : let cls : Kind Lat Sym → Prop := fun k => k = .atomic
    let y : SStru cls := ⟨BVHist.exIons, rfl, trivial⟩
    ∃ k : Cls BCfg (SStru cls) ℝ, IsBondCalculator cls s k ∧
      (bcEval k fill (bcRun k fill (bcInit c y) [.eval y, .configure (fun c => { c with rmin := 1, rmax := 3 }) true]) y).d.value =
        (bcEval k fill (bcInit c y) y).d.value.filter (fun d => decide (1 ≤ d ∧ d ≤ 3)) := by
  intro cls y
  obtain ⟨k, hk⟩ := calculator_exists cls s
  have hcls : ∀ a b, cls a → cls b → SameClass a b := fun a b h1 h2 => by
    have h1 : a = .atomic := h1
    have h2 : b = .atomic := h2
    rw [h1, h2]
    trivial
  have hcfg : ∀ (st : BC BCfg (SStru cls) ℝ), (bcEval k fill st y).h.cfg = st.h.cfg := by
    intro st
    exact PDFHist.evalSt_cfg k.calc (fun z c => congrArg Prod.fst (hk.custom z c)) _ y
  have e0 : (bcEval k fill (bcRun k fill (bcInit c y) []) y).h.cfg = c := hcfg _
  have e1 : (bcEval k fill (bcRun k fill (bcInit c y) [.eval y, .configure (fun c => { c with rmin := 1, rmax := 3 }) true]) y).h.cfg =
      { c with rmin := 1, rmax := 3 } := by
    rw [hcfg]
    show { (bcEval k fill (bcInit c y) y).h.cfg with rmin := 1, rmax := 3 } = _
    rw [hcfg]
    rfl
  have h := bonds_range_partial cls hcls s k hk fill c c y y [] [.eval y, .configure (fun c => { c with rmin := 1, rmax := 3 }) true] (fun _ h => by cases h)
    (fun op hop => by
      simp only [List.mem_cons, List.not_mem_nil, or_false] at hop
      rcases hop with rfl | rfl
      · trivial
      · intro h; cases h) rfl (by simp [taintAfter, taint, BOp.op]) y 1 3 (by rw [e0, e1]) (by rw [e0, h1]; norm_num) (by rw [e0, h2]; norm_num)
  exact ⟨k, hk, h.2⟩

end Verif.BondCalc

namespace Verif.BVHist
open Verif.BondGen Verif.Eval Verif.R3 Verif.Lattice Verif.Diff Verif.KindDiff Verif.Geo Verif.AssocMap
open Verif.BV hiding Op

/-- Above the automatic limit the upper end of the range does not matter. -/
theorem cutoff_above (e : Env) (t : Table ℝ) (x : RStru) (rmax rmax' eps : ℝ) (h : cutoff e t x rmax eps < rmax) (hle : rmax ≤ rmax') :
    cutoff e t x rmax' eps = cutoff e t x rmax eps := by
  unfold cutoff rmaxUsed at *
  rcases min_lt_iff.1 h with h | h
  · exact absurd h (lt_irrefl _)
  · rw [min_eq_right h.le, min_eq_right (h.le.trans hle)]

/-- **C100** for bond valence sums: two calculators, each after any history, that have the same parameters, masks and precision; when the range that
is used is below the upper limit of one, the other with a larger limit has the same results. -/
theorem bvs_range_partial (e : Env) (heap heap' : ℕ → Table ℝ) (cs cs' : List Call) (hp : Proper e heap cs) (hp' : Proper e heap' cs')
    (h1 : (lastCpu cs).2 = 1) (h1' : (lastCpu cs').2 = 1) (htab : tableNow heap' (lastTable cs') cs' = tableNow heap (lastTable cs) cs)
    (hmask : maskNow cs' = maskNow cs) (heps : lastEps cs' = lastEps cs) (hrmax : lastRmax cs ≤ lastRmax cs')
    (x : RStru) (hok : (geom x).Ok) (hmult : ∀ i < x.atoms.length, ∀ j < x.atoms.length, (geom x).mult i = (geom x).mult j)
    (hall : Mask.allStr ∉ x.atoms.map fun a => a.atomtype)
    (hused : cutoff e (tableNow heap (lastTable cs) cs) x (lastRmax cs) (lastEps cs) < lastRmax cs)
    (so : List (Int × Bool)) (td : List (Mask.TKey × Bool)) (hv : (Mask.Op.stru [] so td).Valid (run e (new heap) cs).mask)
    (gen : ℝ → ℝ → Gen Bond) (hgen : ∀ R, (geom x).IsGen 0 R (gen 0 R))
    (so' : List (Int × Bool)) (td' : List (Mask.TKey × Bool)) (hv' : (Mask.Op.stru [] so' td').Valid (run e (new heap') cs').mask)
    (gen' : ℝ → ℝ → Gen Bond) (hgen' : ∀ R, (geom x).IsGen 0 R (gen' 0 R)) :
    let s := run e (new heap) (cs ++ [.eval x so td gen])
    let s' := run e (new heap') (cs' ++ [.eval x so' td' gen'])
    s'.value = s.value ∧ s'.valences = s.valences ∧ s'.bvdiff x.atoms.length = s.bvdiff x.atoms.length ∧ s'.bvmsdiff x = s.bvmsdiff x ∧
      s'.bvrmsdiff x = s.bvrmsdiff x := by
  intro s s'
  have hs := sums_history_partial e heap cs hp x hok hmult hall so td hv gen hgen h1
  have hs' := sums_history_partial e heap' cs' hp' x hok hmult hall so' td' hv' gen' hgen' h1'
  rw [htab, hmask, heps] at hs'
  have hc := cutoff_above e _ x _ _ _ hused hrmax
  obtain ⟨d1, d2, d3⟩ := diffs_of_sums e _ _ _ _ x _ s hs
  obtain ⟨d1', d2', d3'⟩ := diffs_of_sums e _ _ _ _ x _ s' hs'
  refine ⟨?_, ?_, ?_, ?_, ?_⟩
  · exact hs'.value.trans ((by rw [hc] : _ = _).trans hs.value.symm)
  · exact hs'.valences.trans hs.valences.symm
  · exact d1'.trans ((by rw [hc] : _ = _).trans d1.symm)
  · exact d2'.trans ((by rw [hc] : _ = _).trans d2.symm)
  · exact d3'.trans ((by rw [hc] : _ = _).trans d3.symm)

end Verif.BVHist

namespace Verif.OlpHist
open Verif.BondGen Verif.Eval Verif.R3 Verif.Lattice Verif.Diff Verif.KindDiff Verif.Geo Verif.Overlap Verif.AssocMap
open Verif.BVHist (maskIn)

/-- Beyond the largest sum of two radii nothing overlaps. -/
theorem olp_above (s : Stru ℝ) (rmin rmax rmax' : ℝ) (h : maxSeparation s ≤ rmax) (h' : maxSeparation s ≤ rmax') (i j : ℕ) (hi : i < s.cnt) (hj : j < s.cnt) (v : V3) :
    olp s rmin rmax' i j v = olp s rmin rmax i j v := by
  have hm := (maxSeparation_spec s).1 i hi j hj
  have key : ∀ R, maxSeparation s ≤ R → olp s rmin R i j v = if rmin ≤ V3.norm v ∧ 1 / 2 ^ 26 < V3.norm v then max 0 (s.radius i + s.radius j - V3.norm v) else 0 := by
    intro R hR
    unfold olp
    by_cases h1 : rmin ≤ V3.norm v ∧ 1 / 2 ^ 26 < V3.norm v
    · rw [if_pos h1]
      by_cases h2 : V3.norm v ≤ R
      · rw [if_pos (show InRange rmin R (V3.norm v) from ⟨h1.1, h2, h1.2⟩)]
      · rw [if_neg (show ¬ InRange rmin R (V3.norm v) from fun hh => h2 hh.2.1), max_eq_left]
        linarith [not_le.1 h2]
    · rw [if_neg h1, if_neg (show ¬ InRange rmin R (V3.norm v) from fun hh => h1 ⟨hh.1, hh.2.2⟩)]
  rw [key rmax h, key rmax' h']

/-- **C100** for overlaps: two calculators, each after any history, with the same radii, masks and lower limit; when the upper limits are not below the
largest sum of two radii in the structure, they have the same results. -/
theorem overlap_range (num : List Char → Option ℝ) (heap heap' : ℕ → RTable) (cs cs' : List Call) (hp : Proper num heap cs) (hp' : Proper num heap' cs')
    (h1 : (lastCpu cs).2 = 1) (h1' : (lastCpu cs').2 = 1) (htab : tableNow num heap' (lastTable cs') cs' = tableNow num heap (lastTable cs) cs)
    (hmask : maskNow cs' = maskNow cs) (hrmin : lastRmin cs' = lastRmin cs) (x : RStru) (hok : (geom x).Ok) (hall : Mask.allStr ∉ x.atoms.map fun a => a.atomtype)
    (hr : maxSeparation (sitesIn (tableNow num heap (lastTable cs) cs) x) ≤ lastRmax cs)
    (hr' : maxSeparation (sitesIn (tableNow num heap (lastTable cs) cs) x) ≤ lastRmax cs')
    (so : List (Int × Bool)) (td : List (Mask.TKey × Bool)) (hv : (Mask.Op.stru [] so td).Valid (run num (new heap) cs).mask)
    (gen : ℝ → ℝ → Gen Bond) (hgen : ∀ lo hi, (geom x).IsGen lo hi (gen lo hi))
    (so' : List (Int × Bool)) (td' : List (Mask.TKey × Bool)) (hv' : (Mask.Op.stru [] so' td').Valid (run num (new heap') cs').mask)
    (gen' : ℝ → ℝ → Gen Bond) (hgen' : ∀ lo hi, (geom x).IsGen lo hi (gen' lo hi)) :
    let s := run num (new heap) (cs ++ [.eval x so td gen])
    let s' := run num (new heap') (cs' ++ [.eval x so' td' gen'])
    (∀ k < x.atoms.length, (s'.siteSquareOverlaps x)[k]? = (s.siteSquareOverlaps x)[k]? ∧ (s'.coordinations x)[k]? = (s.coordinations x)[k]? ∧
      (∀ tp, (find (s'.coordinationByTypes x k) tp).getD 0 = (find (s.coordinationByTypes x k) tp).getD 0) ∧
      ∀ j, j ∈ s'.getNeighborSites x k ↔ j ∈ s.getNeighborSites x k) ∧
    s'.totalSquareOverlap x = s.totalSquareOverlap x ∧ s'.meanSquareOverlap x = s.meanSquareOverlap x := by
  classical
  intro s s'
  have hs := (overlap_history num heap cs hp x hok hall so td hv gen hgen h1 [] (by simp)).1
  have hs' := (overlap_history num heap' cs' hp' x hok hall so' td' hv' gen' hgen' h1' [] (by simp)).1
  rw [htab, hmask, hrmin] at hs'
  set t := tableNow num heap (lastTable cs) cs
  have hcnt : (sitesIn t x).cnt = x.atoms.length := rfl
  have ho : ∀ i < x.atoms.length, ∀ j < x.atoms.length, olp (sitesIn t x) (lastRmin cs) (lastRmax cs') i j = olp (sitesIn t x) (lastRmin cs) (lastRmax cs) i j :=
    fun i hi j hj => funext fun v => olp_above _ _ _ _ hr hr' i j hi hj v
  have hsq : ∀ i < x.atoms.length, ∀ j < x.atoms.length, squareOverlap (sitesIn t x) (geom x) (lastRmin cs) (lastRmax cs') i j =
      squareOverlap (sitesIn t x) (geom x) (lastRmin cs) (lastRmax cs) i j := by
    intro i hi j hj
    unfold squareOverlap
    rw [ho i hi j hj]
  have hco : ∀ i < x.atoms.length, ∀ j < x.atoms.length, contacts (sitesIn t x) (geom x) (lastRmin cs) (lastRmax cs') i j =
      contacts (sitesIn t x) (geom x) (lastRmin cs) (lastRmax cs) i j := by
    intro i hi j hj
    unfold contacts
    rw [ho i hi j hj]
  have hT : Overlap.total (sitesIn t x) (geom x) (maskIn (maskNow cs) x) (lastRmin cs) (lastRmax cs') =
      Overlap.total (sitesIn t x) (geom x) (maskIn (maskNow cs) x) (lastRmin cs) (lastRmax cs) := by
    unfold Overlap.total
    congr 1
    refine Finset.sum_congr rfl fun i hi => Finset.sum_congr rfl fun j hj => ?_
    rw [hsq i (Finset.mem_range.1 hi) j (Finset.mem_range.1 hj)]
  refine ⟨fun k hk => ⟨?_, ?_, fun tp => ?_, fun j => ?_⟩, ?_, ?_⟩
  · rw [hs.square _ hk, hs'.square _ hk]
    congr 2
    exact Finset.sum_congr rfl fun j hj => by rw [hsq k hk j (Finset.mem_range.1 hj)]
  · rw [hs.coord _ hk, hs'.coord _ hk]
    congr 1
    exact Finset.sum_congr rfl fun j hj => by rw [hco k hk j (Finset.mem_range.1 hj)]
  · rw [(hs.byType _ hk tp).1, (hs'.byType _ hk tp).1]
    exact Finset.sum_congr rfl fun j hj => by rw [hco k hk j (Finset.mem_range.1 hj)]
  · rw [(hs.neighbors _ hk).2 j, (hs'.neighbors _ hk).2 j]
    refine and_congr_right fun hj => and_congr_right fun _ => ?_
    unfold Touch
    rw [ho k hk j hj]
  · rw [hs.total, hs'.total, hT]
  · have e1 := hs.mean
    have e2 := hs'.mean
    dsimp only at e1 e2
    rw [e1, e2, hT]

end Verif.OlpHist

namespace Verif.PDFHist
open Verif.BondGen Verif.Eval Verif.R3 Verif.Lattice Verif.Diff Verif.KindDiff Verif.History Verif.PDFGrid Verif.PDFCache Verif.Geo

variable {C S : Type}

/-- Without limits on Q, transform and inverse transform give back the function on the steps. -/
theorem window_whole (c : PCfg) (qmin qmax : ℝ) (g : ℤ → ℝ) (hd : 0 < c.par.dr) (hmin : qmin - 1 / 2 ^ 26 ≤ qStep c) (hmax : Real.pi / c.par.dr ≤ qmax)
    (n : ℤ) (hn : 0 < n) (h1 : firstStep c ≤ n) (h2 : n < endStep c) :
    fromWindow c qmin qmax (transform c g) ((n : ℝ) * c.par.dr) = g n := by
  have hN : 0 < qPoints c := Nat.two_pow_pos _
  have hNr : (0 : ℝ) < (qPoints c : ℝ) := by exact_mod_cast hN
  have hend : endStep c ≤ (qPoints c : ℤ) := by
    have := Nat.le_pow_clog (b := 2) (by norm_num) (endStep c).toNat
    unfold qPoints
    omega
  have hq : ∀ (i : ℕ) (m : ℤ), (i : ℝ) * qStep c * ((m : ℝ) * c.par.dr) = Real.pi * m * i / qPoints c := by
    intro i m
    unfold qStep
    field_simp
  have hqs : 0 < qStep c := by
    unfold qStep
    have := Real.pi_pos
    positivity
  have hf : 0 ≤ firstStep c := le_max_left _ _
  unfold fromWindow
  have e1 : ∀ i ∈ Finset.range (qPoints c),
      (open Classical in if qmin - 1 / 2 ^ 26 ≤ (i : ℝ) * qStep c ∧ (i : ℝ) * qStep c < min qmax (Real.pi / c.par.dr) then
        transform c g (i * qStep c) * Real.sin (i * qStep c * ((n : ℝ) * c.par.dr)) else 0) =
      c.par.dr * ∑ m ∈ Finset.Ico (firstStep c) (endStep c), g m *
        (Real.sin (Real.pi * ((m.toNat : ℕ) : ℝ) * i / qPoints c) * Real.sin (Real.pi * ((n.toNat : ℕ) : ℝ) * i / qPoints c)) := by
    intro i hi
    have hn' : ((n.toNat : ℕ) : ℝ) = (n : ℝ) := by
      rw [← Int.cast_natCast, Int.toNat_of_nonneg hn.le]
    have e2 : transform c g (i * qStep c) * Real.sin (i * qStep c * ((n : ℝ) * c.par.dr)) =
        c.par.dr * ∑ m ∈ Finset.Ico (firstStep c) (endStep c), g m *
          (Real.sin (Real.pi * ((m.toNat : ℕ) : ℝ) * i / qPoints c) * Real.sin (Real.pi * ((n.toNat : ℕ) : ℝ) * i / qPoints c)) := by
      unfold transform
      rw [mul_assoc, Finset.sum_mul]
      congr 1
      refine Finset.sum_congr rfl fun m hm => ?_
      have hm' : ((m.toNat : ℕ) : ℝ) = (m : ℝ) := by
        rw [← Int.cast_natCast, Int.toNat_of_nonneg (hf.trans (Finset.mem_Ico.1 hm).1)]
      rw [hq i m, hq i n, hm', hn', mul_assoc]
    rcases Nat.eq_zero_or_pos i with rfl | hi0
    · have : ∀ z : ℝ, Real.sin (Real.pi * z * ((0 : ℕ) : ℝ) / qPoints c) = 0 := fun z => by simp
      simp only [this, mul_zero, Finset.sum_const_zero]
      split
      · simp
      · rfl
    · rw [if_pos]
      · exact e2
      · have hir : (1 : ℝ) ≤ i := by exact_mod_cast hi0
        refine ⟨hmin.trans (by nlinarith), ?_⟩
        rw [min_eq_right hmax]
        unfold qStep
        have : (i : ℝ) < qPoints c := by exact_mod_cast Finset.mem_range.1 hi
        have hpi := Real.pi_pos
        rw [mul_div_assoc', div_lt_div_iff₀ (by positivity) hd]
        have h3 : (0 : ℝ) < Real.pi * c.par.dr := by positivity
        nlinarith
  rw [Finset.sum_congr rfl e1, ← Finset.mul_sum, Finset.sum_comm]
  have e3 : ∀ m ∈ Finset.Ico (firstStep c) (endStep c), ∑ i ∈ Finset.range (qPoints c), g m *
      (Real.sin (Real.pi * ((m.toNat : ℕ) : ℝ) * i / qPoints c) * Real.sin (Real.pi * ((n.toNat : ℕ) : ℝ) * i / qPoints c)) =
      if m = n then g n * ((qPoints c : ℝ) / 2) else 0 := by
    intro m hm
    have hm := Finset.mem_Ico.1 hm
    rw [← Finset.mul_sum, Fft.sine_orthogonal _ hN m.toNat n.toNat (by omega) (by omega)]
    by_cases h : m = n
    · subst h
      rw [if_pos ⟨rfl, by omega⟩, if_pos rfl]
    · rw [if_neg (by omega), if_neg h, mul_zero]
  rw [Finset.sum_congr rfl e3, Finset.sum_ite_eq' , if_pos (Finset.mem_Ico.2 ⟨h1, h2⟩)]
  unfold qStep
  have hpi := Real.pi_pos.ne'
  field_simp

/-- **C100** for the RDF: two calculators, each after any history, that differ in the range only, both with enough room for peaks and ripples, agree at
the points of both grids (not within one step of the ends of the range extended by the ripples, unless it starts at zero or the peaks are cropped). -/
theorem rdf_range_partial (s : Sorter) (hs : SortSpec s) (conf : C → LCfg) (stru : S → RStru) (k : Cls C S) (hk : IsLibraryCalculator s conf stru k)
    (hu : Usual conf stru k) (c c' : C) (e e' : S) (ops ops' : List (POp C S)) (ha : Called conf k (pcInit k c e 0 1) ops)
    (ha' : Called conf k (pcInit k c' e' 0 1) ops')
    (ht : taintAfter k.control (pcInit k c e 0 1).h false (ops.map POp.op) = false)
    (ht' : taintAfter k.control (pcInit k c' e' 0 1).h false (ops'.map POp.op) = false) (y : S) (lo hi : ℝ) :
    let r := pcEval k (pcRun k (pcInit k c e 0 1) ops) y
    let r' := pcEval k (pcRun k (pcInit k c' e' 0 1) ops') y
    let cf := conf r.h.cfg
    let cf' := conf r'.h.cfg
    cf' = { cf with p := { cf.p with rmin := lo, rmax := hi } } →
    cf.p.ripples + cf.tails (stru y) ≤ cf.p.maxext → cf'.p.ripples + cf'.tails (stru y) ≤ cf.p.maxext →
    ∃ z z', getRDF k r = some z ∧ getRDF k r' = some z' ∧ z.length = (rgrid cf.p.rmin cf.p.rmax cf.p.rstep).length ∧
      z'.length = (rgrid lo hi cf.p.rstep).length ∧
      ∀ (m m' : ℕ) (n : ℤ), (rgrid cf.p.rmin cf.p.rmax cf.p.rstep)[m]? = some ((n : ℝ) * cf.p.rstep) →
        (rgrid lo hi cf.p.rstep)[m']? = some ((n : ℝ) * cf.p.rstep) →
        (cf.p.rmin - cf.p.ripples ≤ 0 ∨ cf.p.rmin - cf.p.ripples + cf.p.rstep ≤ (n : ℝ) * cf.p.rstep) →
        (lo - cf'.p.ripples ≤ 0 ∨ lo - cf'.p.ripples + cf.p.rstep ≤ (n : ℝ) * cf.p.rstep) →
        ((∃ g, cf.ppf = .cropped g) ∨ (((n : ℝ) + 1) * cf.p.rstep ≤ cf.p.rmax + cf.p.ripples ∧ ((n : ℝ) + 1) * cf.p.rstep ≤ hi + cf'.p.ripples)) →
        z'[m']? = z[m]? := by
  intro r r' cf cf' hcf hfit hfit'
  obtain ⟨z, z1, z2, z3⟩ := library_rdf_partial s hs conf stru k hk hu c e ops ha ht y
  obtain ⟨z', z1', z2', z3'⟩ := library_rdf_partial s hs conf stru k hk hu c' e' ops' ha' ht' y
  have hcf : conf (pcEval k (pcRun k (pcInit k c' e' 0 1) ops') y).h.cfg = { cf with p := { cf.p with rmin := lo, rmax := hi } } := hcf
  have hcf'' : cf' = { cf with p := { cf.p with rmin := lo, rmax := hi } } := hcf
  rw [hcf''] at hfit'
  rw [hcf] at z2' z3'
  rw [hcf'']
  refine ⟨z, z', z1, z1', z2, z2', fun m m' n hm hm' hlo hlo' hup => ?_⟩
  rw [z3 m n hm hlo (hup.imp id And.left), z3' m' n hm' hlo' (hup.imp id And.right)]
  have e1 : counted cf.pcfg (cf.tails (stru y)) (drawnTerm cf.ppf cf.p.rstep n) = drawnTerm cf.ppf cf.p.rstep n := by
    funext w v
    exact if_pos (Or.inl hfit)
  have e2 : ∀ d : LCfg, d.p.ripples + d.tails (stru y) ≤ d.p.maxext → counted d.pcfg (d.tails (stru y)) (drawnTerm d.ppf d.p.rstep n) = drawnTerm d.ppf d.p.rstep n := by
    intro d hd
    funext w v
    exact if_pos (Or.inl hd)
  rw [e2 _ hfit', show counted _ _ _ = _ from e1]
  rfl

/-- G(r) without limits on Q, after any history: at a point of the grid other than zero, RDF over r plus baseline, times the envelopes. -/
theorem unlimited_pdf_partial (s : Sorter) (hs : SortSpec s) (conf : C → LCfg) (stru : S → RStru) (k : Cls C S) (hk : IsLibraryCalculator s conf stru k)
    (hu : Usual conf stru k) (m : C → S → Mask.State) (hm : Masked (fun c => (conf c).pcfg) stru k m) (c : C) (e : S)
    (b : Baseline) (ops : List (OOp C S)) (ha : Called conf k (pcInit k c e 0 1) (calls ops))
    (ht : taintAfter k.control (pcInit k c e 0 1).h false ((calls ops).map POp.op) = false) (x : S) (hpos : 0 < atoms (sitesOf (stru x)))
    (qmin qmax : ℝ) (hq : Fft.QOk qmin qmax) :
    let density := fun x => densityOf (geom (stru x)).mult (stru x)
    let r := ocEval k density (ocRun k density (ocInit k density c e b 0 1) ops) x
    let cf := conf r.pc.h.cfg
    rgrid cf.p.rmin cf.p.rmax cf.p.rstep ≠ [] → 1 / 2 ^ 26 < qStep cf.pcfg → cf.p.ripples + cf.tails (stru x) ≤ cf.p.maxext →
    qmin - 1 / 2 ^ 26 ≤ qStep cf.pcfg → Real.pi / cf.p.rstep ≤ qmax → ∀ env : ℝ → ℝ,
    ∃ z, getPDF k r qmin qmax env = some z ∧ z.length = (rgrid cf.p.rmin cf.p.rmax cf.p.rstep).length ∧
      ∀ (i : ℕ) (n : ℤ), (rgrid cf.p.rmin cf.p.rmax cf.p.rstep)[i]? = some ((n : ℝ) * cf.p.rstep) → 0 < n → Seen cf.pcfg n →
        z[i]? = some ((struRDF cf.pcfg (stru x) (drawnTerm cf.ppf cf.p.rstep n) / ((n : ℝ) * cf.p.rstep) +
          baseOf cf.pcfg (stru x) (lastBase b ops) ((n : ℝ) * cf.p.rstep)) * env ((n : ℝ) * cf.p.rstep)) := by
  intro density r cf hne hres hfit hmin hmax env
  have hg : cf.pcfg.given (cf.tails (stru x)) = cf.pcfg := given_fits hfit
  have htl : k.tails r.pc.h.cfg x = cf.tails (stru x) := hk.tails _ _
  obtain ⟨g, h1, h2⟩ := pdf_history s hs _ stru k (library_calculator hk hu) (library_regular hk hu) m hm c e b ops (called_proper hk hu _ _ ha) ht x hpos
    qmin qmax hq hne (by rw [htl]; exact hg.symm ▸ hres)
  rw [htl] at h1 h2
  have hg' : (conf r.pc.h.cfg).pcfg.given (cf.tails (stru x)) = cf.pcfg := hg
  rw [hg'] at h1 h2
  obtain ⟨z, z1, z2, z3⟩ := h2.pdf (Or.inr hmax) env
  have ok := (library_regular hk hu).ok r.pc.h.cfg x
  have hd0 : 0 < cf.p.rstep := lt_trans eps_pos ok.step
  refine ⟨z, z1, z2, fun i n hi hn hseen => ?_⟩
  rw [z3 i n hi (fun h => absurd h hn.ne')]
  have hmem := List.mem_of_getElem? hi
  have hgrid : GridPoint cf.p.rmin cf.p.rmax cf.p.rstep ((n : ℝ) * cf.p.rstep) := ((rgrid_exact _ _ _ ok.step).1 _).1 hmem
  obtain ⟨-, -, hl, hr⟩ := hgrid
  have hrip : 0 ≤ cf.p.ripples := ok.rip
  have f1 : firstStep cf.pcfg ≤ n := by
    refine max_le hn.le (Int.ceil_le.2 ?_)
    rw [div_le_iff₀ (show 0 < cf.pcfg.par.dr from hd0)]
    show cf.p.rmin - cf.p.ripples - 1 / 2 ^ 26 ≤ (n : ℝ) * cf.p.rstep
    linarith
  have f2 : n < endStep cf.pcfg := by
    refine Int.lt_ceil.2 ?_
    rw [lt_div_iff₀ (show 0 < cf.pcfg.par.dr from hd0)]
    show (n : ℝ) * cf.p.rstep < cf.p.rmax + cf.p.ripples
    linarith
  rw [show fromWindow _ _ _ _ _ = _ from window_whole cf.pcfg qmin qmax g hd0 hmin hmax n hn f1 f2, h1 n f1 f2 hseen]
  have e1 : counted cf.pcfg (cf.tails (stru x)) (drawnTerm cf.ppf cf.p.rstep n) = drawnTerm cf.ppf cf.p.rstep n := by
    funext w v
    exact if_pos (Or.inl hfit)
  exact congrArg (fun w => some ((w / ((n : ℝ) * cf.p.rstep) + baseOf cf.pcfg (stru x) (lastBase b ops) ((n : ℝ) * cf.p.rstep)) * env ((n : ℝ) * cf.p.rstep)))
    ((drawn_sum hk hu r.pc.h.cfg x (cf.tails (stru x)) n).trans (congrArg (struRDF cf.pcfg (stru x)) e1))

/-- **C100** for G(r) without limits on Q and with the same envelopes: as for the RDF, at the points of both grids other than zero. -/
theorem pdf_range_partial (s : Sorter) (hs : SortSpec s) (conf : C → LCfg) (stru : S → RStru) (k : Cls C S) (hk : IsLibraryCalculator s conf stru k)
    (hu : Usual conf stru k) (m : C → S → Mask.State) (hm : Masked (fun c => (conf c).pcfg) stru k m) (c c' : C) (e e' : S)
    (b b' : Baseline) (ops ops' : List (OOp C S)) (ha : Called conf k (pcInit k c e 0 1) (calls ops)) (ha' : Called conf k (pcInit k c' e' 0 1) (calls ops'))
    (ht : taintAfter k.control (pcInit k c e 0 1).h false ((calls ops).map POp.op) = false)
    (ht' : taintAfter k.control (pcInit k c' e' 0 1).h false ((calls ops').map POp.op) = false) (y : S) (hpos : 0 < atoms (sitesOf (stru y)))
    (qmin qmax : ℝ) (hq : Fft.QOk qmin qmax) (lo hi : ℝ) :
    let density := fun x => densityOf (geom (stru x)).mult (stru x)
    let r := ocEval k density (ocRun k density (ocInit k density c e b 0 1) ops) y
    let r' := ocEval k density (ocRun k density (ocInit k density c' e' b' 0 1) ops') y
    let cf := conf r.pc.h.cfg
    let cf' := conf r'.pc.h.cfg
    cf' = { cf with p := { cf.p with rmin := lo, rmax := hi } } → (∀ r, baseOf cf.pcfg (stru y) (lastBase b' ops') r = baseOf cf.pcfg (stru y) (lastBase b ops) r) →
    cf.p.ripples + cf.tails (stru y) ≤ cf.p.maxext → cf'.p.ripples + cf'.tails (stru y) ≤ cf.p.maxext →
    rgrid cf.p.rmin cf.p.rmax cf.p.rstep ≠ [] → rgrid lo hi cf.p.rstep ≠ [] → 1 / 2 ^ 26 < qStep cf.pcfg → 1 / 2 ^ 26 < qStep cf'.pcfg →
    qmin - 1 / 2 ^ 26 ≤ qStep cf.pcfg → qmin - 1 / 2 ^ 26 ≤ qStep cf'.pcfg → Real.pi / cf.p.rstep ≤ qmax → ∀ env : ℝ → ℝ,
    ∃ z z', getPDF k r qmin qmax env = some z ∧ getPDF k r' qmin qmax env = some z' ∧ z.length = (rgrid cf.p.rmin cf.p.rmax cf.p.rstep).length ∧
      z'.length = (rgrid lo hi cf.p.rstep).length ∧
      ∀ (i i' : ℕ) (n : ℤ), (rgrid cf.p.rmin cf.p.rmax cf.p.rstep)[i]? = some ((n : ℝ) * cf.p.rstep) →
        (rgrid lo hi cf.p.rstep)[i']? = some ((n : ℝ) * cf.p.rstep) → 0 < n → Seen cf.pcfg n → Seen cf'.pcfg n → z'[i']? = z[i]? := by
  intro density r r' cf cf' hcf hb hfit hfit' hne hne' hres hres' hmin hmin' hmax env
  have h1 := unlimited_pdf_partial s hs conf stru k hk hu m hm c e b ops ha ht y hpos qmin qmax hq
  have h2 := unlimited_pdf_partial s hs conf stru k hk hu m hm c' e' b' ops' ha' ht' y hpos qmin qmax hq
  obtain ⟨z, z1, z2, z3⟩ := h1 hne hres hfit hmin hmax env
  have hcf : conf (ocEval k density (ocRun k density (ocInit k density c' e' b' 0 1) ops') y).pc.h.cfg =
    { cf with p := { cf.p with rmin := lo, rmax := hi } } := hcf
  have hcf'' : cf' = { cf with p := { cf.p with rmin := lo, rmax := hi } } := hcf
  rw [hcf''] at hfit' hres' hmin'
  dsimp only at h2
  rw [hcf] at h2
  obtain ⟨z', z1', z2', z3'⟩ := h2 hne' hres' hfit' hmin' hmax env
  refine ⟨z, z', z1, z1', z2, z2', fun i i' n hi hi' hn hseen hseen' => ?_⟩
  rw [hcf''] at hseen'
  rw [z3 i n hi hn hseen, z3' i' n hi' hn hseen', ← hb]
  rfl

end Verif.PDFHist

namespace Verif.PDFHist
open Verif.BondGen Verif.Eval Verif.R3 Verif.Lattice Verif.Diff Verif.KindDiff Verif.History Verif.PDFGrid Verif.PDFCache Verif.Geo

/-! ### Concrete cases -/

theorem exLib_ripples (R : ℝ) : (exLib (R, true)).p.ripples ≤ 3 := by
  have hp4 := Real.pi_le_four
  have hp3 := Real.pi_gt_three
  have e : Fft.getQmax (exLib (R, true)).p.qmax (exLib (R, true)).p.rstep = 20 := by
    show min (20 : ℝ) (Real.pi / (1 / 100)) = 20
    rw [min_eq_left]
    rw [le_div_iff₀ (by norm_num)]
    linarith
  unfold Setters.P.ripples
  rw [e]
  dsimp only
  split
  · rw [div_le_iff₀ (by norm_num)]
    linarith
  · norm_num

theorem exLib_fits (R : ℝ) : (exLib (R, true)).p.ripples + (exLib (R, true)).tails exFew ≤ 10 := by
  have h1 := exLib_ripples R
  have h2 : (exLib (R, true)).tails exFew ≤ 2 := by
    have hm : Peak.maxUii (exFew.atoms.map peakSite) = 1 / 100 := by
      norm_num [Peak.maxUii, exFew, exIso, peakSite, siteOf]
    have hl := Peak.log2_pos
    have hl2 : Real.log 2 ≤ 1 := by have := Real.log_le_sub_one_of_pos (show (0 : ℝ) < 2 by norm_num); linarith
    have hw : Peak.dwMaxWidth (exFew.atoms.map peakSite) ≤ 1 / 2 := by
      unfold Peak.dwMaxWidth
      rw [hm]
      dsimp only
      rw [if_neg (by norm_num)]
      unfold Peak.sigmaToFwhm
      have e1 : Real.sqrt (2 * (1 / 100)) ≤ 1 / 6 := Real.sqrt_le_iff.2 ⟨by norm_num, by norm_num⟩
      have e2 : 2 * Real.sqrt (2 * Real.log 2) ≤ 3 := by
        have : Real.sqrt (2 * Real.log 2) ≤ 3 / 2 := Real.sqrt_le_iff.2 ⟨by norm_num, by linarith⟩
        linarith
      nlinarith [Real.sqrt_nonneg (2 * (1 / 100) : ℝ), Real.sqrt_nonneg (2 * Real.log 2)]
    have hp : Peak.Gauss.new.precision = Peak.dblEps := by
      rw [show Peak.Gauss.new.precision = max Peak.dblEps Peak.dblEps from (Peak.set_spec _ _).1, max_self]
    have hh : Peak.Cropped.new.g.half ≤ 4 := by
      have e : Peak.Cropped.new.g = Peak.Gauss.new.setPrecision Peak.dblEps := by
        unfold Peak.Cropped.new Peak.Cropped.setPrecision
        rw [hp]
        dsimp only
        split <;> rfl
      rw [e]
      unfold Peak.Gauss.setPrecision
      rw [max_self, if_pos (by unfold Peak.dblEps; norm_num)]
      dsimp only
      refine Real.sqrt_le_iff.2 ⟨by norm_num, ?_⟩
      have : Real.log Peak.dblEps = -(52 * Real.log 2) := by
        unfold Peak.dblEps
        rw [one_div, Real.log_inv, Real.log_pow]
        norm_num
      rw [this, div_le_iff₀ (by positivity)]
      linarith
    have hb : Peak.Cropped.new.g.hi (Peak.dwMaxWidth (exFew.atoms.map peakSite)) ≤ 2 ∧ 0 ≤ Peak.Cropped.new.g.hi (Peak.dwMaxWidth (exFew.atoms.map peakSite)) := by
      have h0 : 0 ≤ Peak.Cropped.new.g.half := by
        unfold Peak.Cropped.new Peak.Cropped.setPrecision
        have : ∀ (g : Peak.Gauss) (x : ℝ), 0 ≤ (g.setPrecision x).half := by
          intro g x
          unfold Peak.Gauss.setPrecision
          dsimp only
          split
          · exact Real.sqrt_nonneg _
          · exact le_refl _
        dsimp only
        split <;> exact this _ _
      unfold Peak.Gauss.hi
      split
      · norm_num
      · next h =>
        have h := not_le.1 h
        constructor <;> nlinarith
    show max |-1 * Peak.Cropped.new.g.hi (Peak.dwMaxWidth (exFew.atoms.map peakSite))| |Peak.Cropped.new.g.hi (Peak.dwMaxWidth (exFew.atoms.map peakSite))| ≤ 2
    rw [abs_mul, abs_neg, abs_one, one_mul, max_self, abs_of_nonneg hb.2]
    exact hb.1
  linarith

/-- With the upper end of the range at 20 or at 30. -/
example (s : Sorter) (hs : SortSpec s) :
    ∃ (k : Cls (ℝ × Bool) {x : RStru // ExStru (· = .atomic) x}) (z z' : List ℝ), IsLibraryCalculator s exLib (fun x => x.1) k ∧
      getRDF k (pcEval k (pcInit k (20, true) ⟨exFew, exFew_stru.1⟩ 0 1) ⟨exFew, exFew_stru.1⟩) = some z ∧
      getRDF k (pcEval k (pcInit k (30, true) ⟨exFew, exFew_stru.1⟩ 0 1) ⟨exFew, exFew_stru.1⟩) = some z' ∧ 200 < z.length ∧ 200 < z'.length ∧ z'[200]? = z[200]? := by
  have hcls : ∀ a b : Kind Lat Sym, a = .atomic → b = .atomic → SameClass a b := by rintro _ _ rfl rfl; trivial
  obtain ⟨k, hk, hpm⟩ := library_exists s exLib (fun x : {x : RStru // ExStru (· = .atomic) x} => x.1) (fun _ => false)
  have hu : Usual exLib (fun x : {x : RStru // ExStru (· = .atomic) x} => x.1) k := exLib_usual _ hcls id _ (fun x => x.2) k
  have hcfg : ∀ c y z, (pcEval k (pcRun k (pcInit k c z 0 1) []) y).h.cfg = c := by
    intro c y z
    exact evalSt_cfg k.control (fun y c => congrArg Prod.fst (hk.custom y c)) _ y
  obtain ⟨z, z', z1, z2, z3, z4, z5⟩ := rdf_range_partial s hs _ _ k hk hu (20, true) (30, true) ⟨exFew, exFew_stru.1⟩ ⟨exFew, exFew_stru.1⟩ [] []
    (fun pre f _ r post e => by simp at e) (fun pre f _ r post e => by simp at e) rfl rfl ⟨exFew, exFew_stru.1⟩ 0 30
    (by rw [hcfg, hcfg]; rfl) (by rw [hcfg]; exact exLib_fits 20) (by rw [hcfg, hcfg]; exact exLib_fits 30)
  rw [hcfg] at z3 z4 z5
  have hg : ∀ R : ℝ, 3 ≤ R → (rgrid 0 R (1 / 100))[200]? = some (((200 : ℤ) : ℝ) * (1 / 100)) := by
    intro R hR
    have e1 : rminSteps (0 : ℝ) (1 / 100) = 0 := by
      unfold rminSteps
      norm_num [eps]
    have e2 : (300 : ℤ) ≤ rmaxSteps R (1 / 100) := by
      unfold rmaxSteps
      have h : (299 : ℤ) < ⌈R / (1 / 100)⌉ := by
        rw [Int.lt_ceil, lt_div_iff₀ (by norm_num)]
        push_cast
        linarith
      omega
    unfold rgrid intRange
    rw [e1, List.getElem?_map, List.getElem?_map, List.getElem?_range (by omega)]
    norm_num
  refine ⟨k, z, z', hk, z1, z2, ?_, ?_, z5 200 200 200 (hg 20 (by norm_num)) (hg 30 (by norm_num)) ?_ ?_ (Or.inl ⟨_, rfl⟩)⟩
  · rw [z3]
    exact (List.getElem?_eq_some_iff.1 (hg 20 (by norm_num))).1
  · rw [z4]
    exact (List.getElem?_eq_some_iff.1 (hg 30 (by norm_num))).1
  · left
    have := ripples_nonneg (exLib (20, true)).p
    show (0 : ℝ) - (exLib (20, true)).p.ripples ≤ 0
    linarith
  · left
    rw [hcfg]
    have := ripples_nonneg (exLib (30, true)).p
    linarith

/-- The conditions of the theorem for G(r) on steps and limits, with the upper end of the range at 20 or at 30. -/
example (s : Sorter) (R : ℝ) (hR : R = 20 ∨ R = 30) : let cf := exLib (R, true)
    1 / 2 ^ 26 < qStep cf.pcfg ∧ 0 - 1 / 2 ^ 26 ≤ qStep cf.pcfg ∧ Real.pi / cf.p.rstep ≤ 400 ∧ Fft.QOk 0 400 ∧ cf.p.ripples + cf.tails exFew ≤ cf.p.maxext ∧
      ∀ n : ℤ, Seen cf.pcfg n := by
  intro cf
  have h4 := Real.pi_le_four
  have h3 := Real.pi_gt_three
  have hR' : R ≤ 30 := by rcases hR with rfl | rfl <;> norm_num
  have hend : endStep cf.pcfg ≤ 4096 := by
    refine Int.ceil_le.2 ?_
    have := exLib_ripples R
    show (R + (exLib (R, true)).p.ripples) / (1 / 100) ≤ _
    rw [div_le_iff₀ (by norm_num)]
    push_cast
    linarith
  have hp : (qPoints cf.pcfg : ℝ) ≤ 4096 := by
    have h1 : qPoints cf.pcfg ≤ 2 ^ 12 :=
      Nat.pow_le_pow_right (by norm_num) ((Nat.clog_mono_right 2 (show (endStep cf.pcfg).toNat ≤ 2 ^ 12 by omega)).trans (by rw [Nat.clog_pow 2 12 (by norm_num)]))
    exact_mod_cast h1
  have hp0 : (0 : ℝ) < (qPoints cf.pcfg : ℝ) := by exact_mod_cast Nat.two_pow_pos _
  have hq : 1 / 2 ^ 26 < qStep cf.pcfg := by
    unfold qStep
    show _ < Real.pi / ((qPoints cf.pcfg : ℝ) * (1 / 100))
    rw [lt_div_iff₀ (by positivity)]
    linarith
  refine ⟨hq, by linarith [show (0 : ℝ) < 1 / 2 ^ 26 by norm_num], ?_, ⟨le_refl _, by norm_num⟩, exLib_fits R, fun n => ⟨Or.inl ?_, Or.inr ?_⟩⟩
  · show Real.pi / (1 / 100) ≤ 400
    rw [div_le_iff₀ (by norm_num)]
    linarith
  · have := ripples_nonneg (exLib (R, true)).p
    show (0 : ℝ) - (exLib (R, true)).p.ripples ≤ 0
    linarith
  · refine cropped_prof Peak.Cropped.new ?_
    exact (exLib_usual (C := Unit) (S := Empty) (· = .atomic) (by rintro _ _ rfl rfl; trivial) (fun _ => (R, true)) Empty.elim (fun x => x.elim)
      (Classical.choice ⟨(library_exists s (fun _ : Unit => exLib (R, true)) Empty.elim fun _ => false).choose⟩)).ppf ()

end Verif.PDFHist

namespace Verif.BVHist
open Verif.BondGen Verif.Eval Verif.R3 Verif.Lattice Verif.Diff Verif.KindDiff Verif.Geo Verif.AssocMap
open Verif.BV hiding Op Str

/-- Two ions, with an upper limit of 100 or 200; the range used ends before. -/
example (heap : ℕ → Table ℝ) : let std : SetBV ℝ := [(⟨"Na".toList, 1, "Cl".toList, -1⟩, ⟨2, 1, []⟩)]
    let x := exIons
    let s := run (exEnv std) (new heap) [.eval x [] [] (exGen x)]
    let s' := run (exEnv std) (new heap) [.setRmax 200, .eval x [] [] (exGen x)]
    s'.value = s.value ∧ s'.bvrmsdiff x = s.bvrmsdiff x := by
  intro std x s s'
  have hp : Proper (exEnv std) heap [] := ⟨fun pre op post h => by simp at h, fun pre a b c post h => by simp at h, fun pre a b c d post h => by simp at h⟩
  have hp' : Proper (exEnv std) heap [.setRmax 200] :=
    ⟨fun pre op post h => by rcases pre with _ | ⟨_, pre⟩ <;> simp at h, fun pre a b c post h => by rcases pre with _ | ⟨_, pre⟩ <;> simp at h,
      fun pre a b c d post h => by rcases pre with _ | ⟨_, pre⟩ <;> simp at h⟩
  have hv : (Mask.Op.stru [] [] []).Valid (run (exEnv std) (new heap) []).mask := ⟨List.Perm.refl _, List.Perm.refl _⟩
  have hv' : (Mask.Op.stru [] [] []).Valid (run (exEnv std) (new heap) [.setRmax 200]).mask := ⟨List.Perm.refl _, List.Perm.refl _⟩
  have h := bvs_range_partial (exEnv std) heap heap [] [.setRmax 200] hp hp' rfl rfl rfl rfl rfl (by show (100 : ℝ) ≤ 200; norm_num) x trivial (fun _ _ _ _ => rfl) (by decide)
    ?_ [] [] hv (exGen x) (fun R => (gen_exists _ _ _).choose_spec) [] [] hv' (exGen x) (fun R => (gen_exists _ _ _).choose_spec)
  · exact ⟨h.1, h.2.2.2.2⟩
  · show cutoff (exEnv std) ⟨[], []⟩ exIons 100 (1 / 10 ^ 5) < 100
    have e : bpUsed std ⟨[], []⟩ ((exEnv std).order (symvals ⟨[], []⟩ exIons)) = [(⟨"Na".toList, 1, "Cl".toList, -1⟩, ⟨2, 1, []⟩), (⟨[], 0, [], 0⟩, ⟨0, 0, []⟩)] := by
      rfl
    unfold cutoff rmaxUsed rmaxFromPrecision
    rw [show (exEnv std).std = std from rfl, e]
    refine min_lt_of_right_lt ?_
    have hl : Real.log (1 / 10 ^ 5) = -(5 * Real.log 10) := by
      rw [one_div, Real.log_inv, Real.log_pow]
      norm_num
    have h10 : Real.log 10 ≤ 9 := by have := Real.log_le_sub_one_of_pos (show (0 : ℝ) < 10 by norm_num); linarith
    show max (max 0 (2 - 1 * Real.log (1 / 10 ^ 5))) (0 - 0 * Real.log (1 / 10 ^ 5)) < 100
    rw [hl]
    refine max_lt (max_lt (by norm_num) (by linarith)) (by linarith)

end Verif.BVHist

namespace Verif.OlpHist
open Verif.BondGen Verif.Eval Verif.R3 Verif.Lattice Verif.Diff Verif.KindDiff Verif.Geo Verif.Overlap Verif.AssocMap
open Verif.BVHist (exIons exGen)

/-- Two atoms of radius 3/2, with an upper limit of 100 or 3. -/
example (num : List Char → Option ℝ) (heap : ℕ → RTable) : let x := exIons
    let s := run num (new heap) [.editTable 0 (.setDefault (3 / 2)), .eval x [] [] (exGen x)]
    let s' := run num (new heap) [.editTable 0 (.setDefault (3 / 2)), .setRmax 3, .eval x [] [] (exGen x)]
    s'.totalSquareOverlap x = s.totalSquareOverlap x ∧ s'.meanSquareOverlap x = s.meanSquareOverlap x := by
  intro x s s'
  have hp : Proper num heap [.editTable 0 (.setDefault (3 / 2))] := by
    refine ⟨fun pre op post h => ?_, fun pre a b c post h => ?_, fun pre a b c d post h => ?_⟩ <;>
      rcases pre with _ | ⟨_, pre⟩ <;> simp at h
  have hp' : Proper num heap [.editTable 0 (.setDefault (3 / 2)), .setRmax 3] := by
    refine ⟨fun pre op post h => ?_, fun pre a b c post h => ?_, fun pre a b c d post h => ?_⟩ <;>
      rcases pre with _ | ⟨_, _ | ⟨_, pre⟩⟩ <;> simp at h
  have hv : (Mask.Op.stru [] [] []).Valid (run num (new heap) [.editTable 0 (.setDefault (3 / 2))]).mask := ⟨List.Perm.refl _, List.Perm.refl _⟩
  have hv' : (Mask.Op.stru [] [] []).Valid (run num (new heap) [.editTable 0 (.setDefault (3 / 2)), .setRmax 3]).mask := ⟨List.Perm.refl _, List.Perm.refl _⟩
  have hm : maxSeparation (sitesIn (tableNow num heap 0 [.editTable 0 (.setDefault (3 / 2))]) exIons) = 3 := by
    show (2 : ℝ) * max (3 / 2) (3 / 2) = 3
    rw [max_self]
    norm_num
  have h := overlap_range num heap heap [.editTable 0 (.setDefault (3 / 2))] [.editTable 0 (.setDefault (3 / 2)), .setRmax 3] hp hp' rfl rfl rfl rfl rfl x trivial (by decide)
    (by show maxSeparation _ ≤ (100 : ℝ); refine hm.le.trans ?_; norm_num) (by show maxSeparation _ ≤ (3 : ℝ); exact hm.le) [] [] hv (exGen x)
    (fun lo hi => (gen_exists _ _ _).choose_spec) [] [] hv' (exGen x) (fun lo hi => (gen_exists _ _ _).choose_spec)
  exact h.2

end Verif.OlpHist
