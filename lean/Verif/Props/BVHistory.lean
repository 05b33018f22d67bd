import Verif.Model.BVHistory
import Verif.Props.BVSum
import Verif.Props.BondHistory
import Verif.Props.MaskCalls
import Verif.Props.Protocol
/-! C95: bond valence sums after a history of calls, and from parallel jobs. -/
set_option linter.unusedSectionVars false
namespace Verif.BVHist
open Verif.BV hiding Op
open Verif.BondGen Verif.Eval Verif.Diff Verif.KindDiff Verif.Geo Verif.R3 Verif.Lattice
open Verif.PDFCache (basicLoop_congr)
open Verif.Crystal (equivPos)
open Verif.Protocol (Out Err Merge)
open scoped BigOperators

/-! ### Specification -/

/-- The bond valence sum of site `k`: over all atoms of all sites `j` that the mask lets through, counted with the weight `w j`. -/
noncomputable def weightedSum (std : SetBV ℝ) (t : Table ℝ) (g : Geometry) (st : ℕ → Site) (mask : ℕ → ℕ → Bool) (R : ℝ) (w : ℕ → ℝ) (k : ℕ) : ℝ :=
  ∑ j ∈ Finset.range g.cnt, if mask k j = true then w j * g.sum k j fun v => neighbour std t st R k j (V3.norm v) else 0

/-- The weight the code gives to the atoms of site `j` seen from `k`. -/
noncomputable def siteWeight (g : Geometry) (k j : ℕ) : ℝ := if j ≤ k then 1 else (g.mult k : ℝ) / g.mult j

/-- The last upper limit set. -/
def lastRmax : List Call → ℝ := fun cs => cs.foldl (fun r c => match c with | .setRmax x => x | _ => r) 100

/-- The last precision set that was accepted. -/
noncomputable def lastEps : List Call → ℝ := fun cs =>
  cs.foldl (fun r c => match c with | .setPrecision x => if Setters.throwsNotPositive x then r else x | _ => r) (1 / 10 ^ 5)

/-- The last table set. -/
def lastTable : List Call → ℕ := fun cs => cs.foldl (fun r c => match c with | .setTable (some t) => t | _ => r) 0

/-- The calls made on table `t`. -/
def tableCalls (t : ℕ) (cs : List Call) : List (BV.Op ℝ) := cs.filterMap fun c => match c with | .editTable u op => if u = t then some op else none | _ => none

/-- The content of table `t` after these calls. -/
noncomputable def tableNow (heap : ℕ → Table ℝ) (t : ℕ) (cs : List Call) : Table ℝ :=
  (tableCalls t cs).foldl tstep (if t = 0 then ⟨[], []⟩ else heap t)

/-- The effect of a call on the masks, structures aside. -/
def maskStep (m : Mask.State) : Call → Mask.State
  | .mask op => Mask.step m op
  | _ => m

/-- The masks after the mask calls alone. -/
def maskNow (cs : List Call) : Mask.State := cs.foldl maskStep Mask.init

/-- The last accepted CPU assignment. -/
def lastCpu : List Call → Int × Int := fun cs => cs.foldl (fun r c => match c with | .parallel i n => if n < 1 then r else (i, n) | _ => r) (0, 1)

/-- Mask calls are such that the masks do not depend on structures seen before, none contradicts an "all" type mask (C92), and the mask containers are
visited once each. -/
def Proper (e : Env) (heap : ℕ → Table ℝ) (cs : List Call) : Prop :=
  (∀ pre op post, cs = pre ++ .mask op :: post → op.Simple (maskNow pre) ∧ op.Consistent (maskNow pre)) ∧
  (∀ pre x so td post, cs = pre ++ .setStructure x so td :: post → (Mask.Op.stru [] so td).Valid (run e (new heap) pre).mask) ∧
  (∀ pre x so td gen post, cs = pre ++ .eval x so td gen :: post → (Mask.Op.stru [] so td).Valid (run e (new heap) pre).mask)

/-- The order of the hash set: every pair once. -/
def Env.Ok (e : Env) : Prop := ∀ l, (e.order l).Nodup ∧ ∀ x, x ∈ e.order l ↔ x ∈ l

/-! ### Settings -/

theorem run_append (e : Env) (s : Obj) (a b : List Call) : run e s (a ++ b) = run e (run e s a) b := by
  induction a generalizing s with
  | nil => rfl
  | cons c a ih => exact ih _

theorem run_snoc (e : Env) (s : Obj) (a : List Call) (c : Call) : run e s (a ++ [c]) = (step e (run e s a) c).st := run_append e s a [c]

theorem evaluate_fields (e : Env) (s : Obj) (x : RStru) (so : List (Int × Bool)) (td : List (Mask.TKey × Bool)) (gen : ℝ → ℝ → Gen Bond) :
    (evaluate e s x so td gen).rmax = s.rmax ∧ (evaluate e s x so td gen).eps = s.eps ∧ (evaluate e s x so td gen).heap = s.heap ∧
    (evaluate e s x so td gen).tid = s.tid ∧ (evaluate e s x so td gen).mask = Mask.setStructure so td s.mask (x.atoms.map fun a => a.atomtype) ∧
    (evaluate e s x so td gen).cpuindex = s.cpuindex ∧ (evaluate e s x so td gen).ncpu = s.ncpu ∧ (evaluate e s x so td gen).stru = x ∧
    (evaluate e s x so td gen).cache = cacheStructureData (s.heap s.tid) x := ⟨rfl, rfl, rfl, rfl, rfl, rfl, rfl, rfl, rfl⟩

/-- The settings after any history of calls: limits, precision, table and CPU are those last accepted; a table is changed by all calls made on
it, whether it is in use or not. -/
theorem settings (e : Env) (heap : ℕ → Table ℝ) (cs : List Call) :
    let s := run e (new heap) cs
    s.rmax = lastRmax cs ∧ s.eps = lastEps cs ∧ s.tid = lastTable cs ∧ (∀ t, s.heap t = tableNow heap t cs) ∧ (s.cpuindex, s.ncpu) = lastCpu cs := by
  induction cs using List.reverseRecOn with
  | nil =>
    refine ⟨rfl, rfl, rfl, fun t => ?_, rfl⟩
    show Function.update heap 0 ⟨[], []⟩ t = if t = 0 then ⟨[], []⟩ else heap t
    by_cases h : t = 0
    · rw [h, Function.update_self, if_pos rfl]
    · rw [Function.update_of_ne h, if_neg h]
  | append_singleton cs c ih =>
    obtain ⟨h1, h2, h3, h4, h5⟩ := ih
    have htab : ∀ t, tableNow heap t (cs ++ [c]) = (tableCalls t [c]).foldl tstep (tableNow heap t cs) := by
      intro t
      unfold tableNow tableCalls
      rw [List.filterMap_append, List.foldl_append]
    simp only [run_snoc, lastRmax, lastEps, lastTable, lastCpu, List.foldl_append, List.foldl_cons, List.foldl_nil, htab]
    simp only [lastRmax, lastEps, lastTable, lastCpu] at h1 h2 h3 h5
    cases c with
    | setRmin r => exact ⟨h1, h2, h3, h4, h5⟩
    | setRmax r => exact ⟨rfl, h2, h3, h4, h5⟩
    | setPrecision r =>
      simp only [step]
      split
      · exact ⟨h1, h2, h3, h4, h5⟩
      · exact ⟨h1, rfl, h3, h4, h5⟩
    | setTable t =>
      cases t with
      | none => exact ⟨h1, h2, h3, h4, h5⟩
      | some t => exact ⟨h1, h2, rfl, h4, h5⟩
    | editTable u op =>
      refine ⟨h1, h2, h3, fun t => ?_, h5⟩
      show Function.update (run e (new heap) cs).heap u (tstep ((run e (new heap) cs).heap u) op) t = (tableCalls t [.editTable u op]).foldl tstep _
      unfold tableCalls
      by_cases h : t = u
      · subst h
        rw [Function.update_self, h4]
        simp
      · have h' : ¬ u = t := fun x => h x.symm
        rw [Function.update_of_ne h, h4]
        simp [h']
    | mask op => exact ⟨h1, h2, h3, h4, h5⟩
    | setStructure x so td => exact ⟨h1, h2, h3, h4, h5⟩
    | eval x so td gen => exact ⟨h1, h2, h3, h4, h5⟩
    | setType t =>
      simp only [step]
      split <;> exact ⟨h1, h2, h3, h4, h5⟩
    | parallel i n =>
      simp only [step]
      split
      · exact ⟨h1, h2, h3, h4, h5⟩
      · exact ⟨h1, h2, h3, h4, rfl⟩
    | merge p n => exact ⟨h1, h2, h3, h4, h5⟩

theorem proper_prefix {e : Env} {heap : ℕ → Table ℝ} {cs ds : List Call} (h : Proper e heap (cs ++ ds)) : Proper e heap cs :=
  ⟨fun pre op post hc => h.1 pre op (post ++ ds) (by rw [hc]; simp), fun pre x so td post hc => h.2.1 pre x so td (post ++ ds) (by rw [hc]; simp),
    fun pre x so td gen post hc => h.2.2 pre x so td gen (post ++ ds) (by rw [hc]; simp)⟩

theorem masks_run (e : Env) (heap : ℕ → Table ℝ) (cs : List Call) (h : Proper e heap cs) : Mask.Runs (run e (new heap) cs).mask (maskNow cs) := by
  induction cs using List.reverseRecOn with
  | nil => exact Mask.Runs.init
  | append_singleton cs c ih =>
    have ih := ih (proper_prefix h)
    rw [run_snoc]
    have em : maskNow (cs ++ [c]) = maskStep (maskNow cs) c := by
      unfold maskNow
      rw [List.foldl_append]
      rfl
    rw [em]
    cases c with
    | setRmin r => exact ih
    | setRmax r => exact ih
    | setPrecision r =>
      simp only [step]
      split <;> exact ih
    | setTable t => cases t <;> exact ih
    | editTable u op => exact ih
    | mask op =>
      obtain ⟨h1, h2⟩ := h.1 cs op [] rfl
      exact Mask.Runs.call ih op h1 h2
    | setStructure x so td => exact Mask.Runs.stru ih _ so td (h.2.1 cs x so td [] rfl)
    | eval x so td gen => exact Mask.Runs.stru ih _ so td (h.2.2 cs x so td gen [] rfl)
    | setType t =>
      simp only [step]
      split <;> exact ih
    | parallel i n =>
      simp only [step]
      split <;> exact ih
    | merge p n => exact ih

/-! ### The sums -/

theorem siteMult_eq (x : RStru) (i : ℕ) : siteMult x i = (geom x).mult i := by
  obtain ⟨k, a⟩ := x
  cases k with
  | atomic => rfl
  | periodic L => rfl
  | crystal L o =>
    show ((crysOf a L o).refresh.sym.getD i []).length = (equivPos (crysOf a L o) i).length
    unfold equivPos
    rw [List.length_map]
    rfl

theorem mult_pos (g : Geometry) (hok : g.Ok) (i : ℕ) (h : i < g.cnt) : 0 < g.mult i := by
  cases g with
  | cluster n pos => exact one_pos
  | periodic n L xyz => exact one_pos
  | crystal c => exact List.length_pos_iff.2 (PDFCache.equivPos_ne c hok.1.eps i h)

/-- The half-sum loop for any structure: the neighbours of a later site are counted with the ratio of the multiplicities. -/
theorem loop_sums (std : SetBV ℝ) (t : Table ℝ) (st : ℕ → Site) (g : Geometry) (hok : g.Ok) (R : ℝ) (gen : Gen Bond) (hgen : g.IsGen 0 R gen)
    (rule : Bool) (use : ℕ → ℕ → Bool) (hu : ∀ i j, use i j = use j i) (k : ℕ) (hk : k < g.cnt) :
    evalBVS std t st (basicTrace rule (distGen gen) false use g.cnt 0 1) k = weightedSum std t g st use R (siteWeight g k) k := by
  obtain ⟨bonds, hd⟩ := delivers g hok 0 R gen hgen
  obtain ⟨gen1, hs, he⟩ := hd.spec
  have e : basicTrace rule (distGen gen) false use g.cnt 0 1 = basicTrace rule (distGen gen1) false use g.cnt 0 1 := by
    unfold basicTrace
    refine basicLoop_congr _ _ _ _ _ _ _ _ (fun i sel h1 h2 => ?_) _ (fun i hi => List.mem_range.1 hi) _
    unfold distGen
    rw [he i sel h1 h2]
  rw [e, half_exact std t st rule _ _ (distGen_spec _ _ hs) use hu g.cnt k hk]
  unfold weightedSum
  refine Finset.sum_congr rfl fun j hj => ?_
  have hj := Finset.mem_range.1 hj
  congr 1
  have hterm : ∀ a < g.cnt, ∀ b < g.cnt, (((bonds a b).map Bond.distance).map fun d => siteSign t st k * pairVal std t st k j d * (st j).occ).sum =
      g.sum a b (Geo.cut 0 R fun v => siteSign t st k * pairVal std t st k j (V3.norm v) * (st j).occ) := by
    intro a ha b hb
    rw [← hd.sum a ha b hb, List.map_map]
    congr 1
    refine List.map_congr_left fun c hc => ?_
    show _ * pairVal std t st k j c.distance * _ = _
    rw [hd.dist a b c hc]
  have hcut : (Geo.cut 0 R fun v => siteSign t st k * pairVal std t st k j (V3.norm v) * (st j).occ) =
      fun v => neighbour std t st R k j (V3.norm v) := by
    funext v
    unfold Geo.cut neighbour
    have h0 : (0 : ℝ) < 1 / 2 ^ 26 := by positivity
    by_cases h : 1 / 2 ^ 26 < V3.norm v ∧ V3.norm v ≤ R
    · have h' : InRange 0 R (V3.norm v) := ⟨(h0.trans h.1).le, h.2, h.1⟩
      rw [if_pos h, if_pos h']
    · have h' : ¬ InRange 0 R (V3.norm v) := fun x => h ⟨x.2.2, x.2.1⟩
      rw [if_neg h, if_neg h']
  unfold siteWeight
  by_cases hjk : j ≤ k
  · rw [max_eq_left hjk, min_eq_right hjk, hterm k hk j hj, if_pos hjk, one_mul, hcut]
  · have hlt := not_le.1 hjk
    rw [max_eq_right hlt.le, min_eq_left hlt.le, hterm j hj k hk, if_neg hjk, ← hcut]
    have hb := balance g hok 0 R (fun d => siteSign t st k * pairVal std t st k j d * (st j).occ) k j hk hj
    have hm : (g.mult j : ℝ) ≠ 0 := by exact_mod_cast (mult_pos g hok j hj).ne'
    rw [div_mul_eq_mul_div, eq_div_iff hm, mul_comm]
    exact hb.symm

/-! ### Evaluations -/

/-- The pairs of sites of `x` that the masks `m` let through. -/
def maskIn (m : Mask.State) (x : RStru) (i j : ℕ) : Bool :=
  Mask.maskOf m i j (x.atoms[i]?.map fun a => a.atomtype) (x.atoms[j]?.map fun a => a.atomtype)

/-- The (symbol, valence) pairs of the sites. -/
def symvals (t : Table ℝ) (x : RStru) : List (Str × Int) :=
  x.atoms.map fun a => (AtomUtils.atomBareSymbol a.atomtype.toList, getAtomValence t a.atomtype.toList)

/-- The range within which bonds are counted: the upper limit set, or less when beyond all valences are below the precision. -/
noncomputable def cutoff (e : Env) (t : Table ℝ) (x : RStru) (rmax eps : ℝ) : ℝ := rmaxUsed e.std t (e.order (symvals t x)) rmax eps

theorem siteAt_some (x : RStru) (i : ℕ) (h : i < x.atoms.length) : siteAt x i = ⟨(x.atoms[i]).atomtype.toList, ((x.atoms[i]).occupancy : ℝ), siteMult x i⟩ := by
  unfold siteAt
  rw [List.getElem?_eq_getElem h]
  rfl

/-- The cutoff is that of C26 for the set of pairs of the sites. -/
theorem symvals_order (e : Env) (he : e.Ok) (t : Table ℝ) (x : RStru) : IsSymVals t (siteAt x) x.atoms.length (e.order (symvals t x)) := by
  refine ⟨(he _).1, fun y => ?_⟩
  rw [(he _).2]
  unfold symvals
  rw [List.mem_map]
  constructor
  · rintro ⟨a, ha, rfl⟩
    obtain ⟨i, hi, rfl⟩ := List.getElem_of_mem ha
    exact ⟨i, hi, by rw [siteAt_some x i hi]; rfl⟩
  · rintro ⟨i, hi, rfl⟩
    exact ⟨x.atoms[i], List.getElem_mem hi, by rw [siteAt_some x i hi]; rfl⟩

theorem use_eq (m : Mask.State) : (fun i j : ℕ => !(Mask.hasMask m && !Mask.getPairMask m i j)) = fun i j : ℕ => Mask.getPairMask m i j := by
  funext i j
  cases h : Mask.hasMask m with
  | true => simp
  | false => rw [Mask.mask_hasMask_false m h]; rfl

/-- The contributions of an evaluation by CPU `c` of `n`. -/
noncomputable def jobTrace (m : Mask.State) (x : RStru) (gen : Gen Bond) (c n : Int) : List (Contrib ℝ) :=
  basicTrace (chopOuterRule x.atoms.length n) (distGen gen) false (maskIn m x) x.atoms.length c n

theorem evaluate_value (e : Env) (heap : ℕ → Table ℝ) (cs : List Call) (hp : Proper e heap cs) (x : RStru) (hall : Mask.allStr ∉ x.atoms.map fun a => a.atomtype)
    (so : List (Int × Bool)) (td : List (Mask.TKey × Bool)) (hv : (Mask.Op.stru [] so td).Valid (run e (new heap) cs).mask) (gen : ℝ → ℝ → Gen Bond) :
    let t := tableNow heap (lastTable cs) cs
    let s := run e (new heap) (cs ++ [.eval x so td gen])
    s.value = (List.range x.atoms.length).map (evalBVS e.std t (siteAt x)
      (jobTrace (maskNow cs) x (gen 0 (cutoff e t x (lastRmax cs) (lastEps cs))) (lastCpu cs).1 (lastCpu cs).2)) ∧
    s.cache = symvals t x ∧ s.stru = x := by
  intro t s
  obtain ⟨h1, h2, h3, h4, h5⟩ := settings e heap cs
  have ht : (run e (new heap) cs).table = t := by
    show (run e (new heap) cs).heap (run e (new heap) cs).tid = t
    rw [h4, h3]
  have hs : s = evaluate e (run e (new heap) cs) x so td gen := run_snoc e (new heap) cs _
  have h51 : (run e (new heap) cs).cpuindex = (lastCpu cs).1 := by rw [← h5]
  have h52 : (run e (new heap) cs).ncpu = (lastCpu cs).2 := by rw [← h5]
  refine ⟨?_, ?_, ?_⟩
  · rw [hs]
    show (List.range x.atoms.length).map (evalBVS e.std (run e (new heap) cs).table (siteAt x) (basicTrace (chopOuterRule x.atoms.length (run e (new heap) cs).ncpu)
      (distGen (gen 0 ((getRmaxUsed e (setStructure (run e (new heap) cs) x so td) x.atoms.length).getD 0))) false
      (fun i j => !(Mask.hasMask (Mask.setStructure so td (run e (new heap) cs).mask (x.atoms.map fun a => a.atomtype)) &&
        !Mask.getPairMask (Mask.setStructure so td (run e (new heap) cs).mask (x.atoms.map fun a => a.atomtype)) i j)) x.atoms.length
      (run e (new heap) cs).cpuindex (run e (new heap) cs).ncpu)) = _
    rw [use_eq]
    have hm : (fun i j : ℕ => Mask.getPairMask (Mask.setStructure so td (run e (new heap) cs).mask (x.atoms.map fun a => a.atomtype)) i j) = maskIn (maskNow cs) x := by
      funext i j
      rw [Mask.mask_in_evaluation (masks_run e heap cs hp) _ hall so td hv i j, List.getElem?_map, List.getElem?_map]
      rfl
    have hr : getRmaxUsed e (setStructure (run e (new heap) cs) x so td) x.atoms.length = some (cutoff e t x (lastRmax cs) (lastEps cs)) := by
      unfold getRmaxUsed
      have hc : (setStructure (run e (new heap) cs) x so td).cache = symvals t x := by
        show cacheStructureData (run e (new heap) cs).table x = _
        rw [ht]; rfl
      have hl : (symvals t x).length = x.atoms.length := List.length_map _
      rw [hc, if_pos hl.ge, ← hl, List.take_length]
      show some (rmaxUsed e.std (run e (new heap) cs).table _ (run e (new heap) cs).rmax (run e (new heap) cs).eps) = _
      rw [ht, h1, h2]; rfl
    rw [hm, hr, ht, h51, h52]
    rfl
  · rw [hs]
    show cacheStructureData (run e (new heap) cs).table x = _
    rw [ht]; rfl
  · rw [hs]; rfl

theorem maskIn_symm (e : Env) (heap : ℕ → Table ℝ) (cs : List Call) (hp : Proper e heap cs) (x : RStru) (hall : Mask.allStr ∉ x.atoms.map fun a => a.atomtype)
    (i j : ℕ) : maskIn (maskNow cs) x i j = maskIn (maskNow cs) x j i := by
  have h := fun i j => Mask.mask_in_evaluation (masks_run e heap cs hp) _ hall _ _ ⟨List.Perm.refl _, List.Perm.refl _⟩ i j
  have h' : ∀ i j, maskIn (maskNow cs) x i j = Mask.getPairMask (Mask.setStructure (run e (new heap) cs).mask.site (run e (new heap) cs).mask.typ
      (run e (new heap) cs).mask (x.atoms.map fun a => a.atomtype)) i j := by
    intro i j
    rw [h i j, List.getElem?_map, List.getElem?_map]
    rfl
  rw [h', h', Mask.mask_symmetric]

/-- What a calculator with the table `t`, the masks `m`, the limit `rmax` and the precision `eps` has after the evaluation of `x`, with the neighbours of site `k` on
site `j` counted `w k j` times: the sums, the expected valences, and the range used. -/
structure Evaluated (e : Env) (t : Table ℝ) (m : Mask.State) (rmax eps : ℝ) (x : RStru) (w : ℕ → ℕ → ℝ) (s : Obj) : Prop where
  value : s.value = (List.range x.atoms.length).map fun k => weightedSum e.std t (geom x) (siteAt x) (maskIn m x) (cutoff e t x rmax eps) (w k) k
  valences : s.valences = x.atoms.map fun a => getAtomValence t a.atomtype.toList
  cache : s.cache = symvals t x
  stru : s.stru = x

theorem map_congr_range {β : Type} (n : ℕ) (f g : ℕ → β) (h : ∀ k < n, f k = g k) : (List.range n).map f = (List.range n).map g :=
  List.map_congr_left fun k hk => h k (List.mem_range.1 hk)

/-- A full sum from the contributions of all jobs together. -/
theorem jobs_sum (e : Env) (t : Table ℝ) (m : Mask.State) (x : RStru) (hok : (geom x).Ok) (R : ℝ) (gen : Gen Bond) (hgen : (geom x).IsGen 0 R gen)
    (hu : ∀ i j, maskIn m x i j = maskIn m x j i) (n : ℕ) (hn : 1 ≤ n) (k : ℕ) (hk : k < x.atoms.length) :
    ((List.range n).map fun i : ℕ => evalBVS e.std t (siteAt x) (jobTrace m x gen (i : ℤ) (n : ℤ)) k).sum =
      weightedSum e.std t (geom x) (siteAt x) (maskIn m x) R (siteWeight (geom x) k) k := by
  rw [← loop_sums e.std t (siteAt x) (geom x) hok R gen hgen (chopOuterRule x.atoms.length n) (maskIn m x) hu k (by rw [geom_cnt]; exact hk), geom_cnt]
  have hp := parallel_basic_partition (chopOuterRule x.atoms.length n) (distGen gen) false (maskIn m x) x.atoms.length n hn 0
  rw [evalBVS_eq, ← traceSum_perm _ hp]
  unfold traceSum
  rw [sum_apply_list, flatMap_sum]
  congr 1
  refine List.map_congr_left fun i _ => ?_
  rw [evalBVS_eq]
  unfold traceSum jobTrace
  rw [sum_apply_list, zero_add]

/-- **C95** (all structures; exact). After any history of calls (masks as in C92), an evaluation in one process leaves in `value()` the sums over the neighbours within
`getRmaxUsed()` under the masks and the table in use and its present content, and in `valences()` the valences of that table; the neighbours on a later site
of a crystal are counted with the ratio of the multiplicities.  `setRmin` plays no part. -/
theorem sums_history (e : Env) (heap : ℕ → Table ℝ) (cs : List Call) (hp : Proper e heap cs) (x : RStru) (hok : (geom x).Ok)
    (hall : Mask.allStr ∉ x.atoms.map fun a => a.atomtype) (so : List (Int × Bool)) (td : List (Mask.TKey × Bool))
    (hv : (Mask.Op.stru [] so td).Valid (run e (new heap) cs).mask) (gen : ℝ → ℝ → Gen Bond) (hgen : ∀ R, (geom x).IsGen 0 R (gen 0 R))
    (h1 : (lastCpu cs).2 = 1) :
    let s := run e (new heap) (cs ++ [.eval x so td gen])
    Evaluated e (tableNow heap (lastTable cs) cs) (maskNow cs) (lastRmax cs) (lastEps cs) x (siteWeight (geom x)) s ∧
    getRmaxUsed e s x.atoms.length = some (cutoff e (tableNow heap (lastTable cs) cs) x (lastRmax cs) (lastEps cs)) := by
  intro s
  obtain ⟨v1, v2, v3⟩ := evaluate_value e heap cs hp x hall so td hv gen
  refine ⟨⟨?_, ?_, v2, v3⟩, ?_⟩
  · refine v1.trans (map_congr_range _ _ _ fun k hk => ?_)
    have hj : ∀ c, jobTrace (maskNow cs) x (gen 0 (cutoff e (tableNow heap (lastTable cs) cs) x (lastRmax cs) (lastEps cs))) c 1 =
        jobTrace (maskNow cs) x (gen 0 (cutoff e (tableNow heap (lastTable cs) cs) x (lastRmax cs) (lastEps cs))) 0 1 := by
      intro c
      unfold jobTrace
      rw [basicTrace_serial, basicTrace_serial]
    rw [h1, hj]
    exact loop_sums e.std _ (siteAt x) (geom x) hok _ _ (hgen _) _ (maskIn (maskNow cs) x) (maskIn_symm e heap cs hp x hall) k (by rw [geom_cnt]; exact hk) |>.symm ▸ by
      unfold jobTrace; rw [geom_cnt]
  · show s.cache.map Prod.snd = _
    rw [v2]
    unfold symvals
    rw [List.map_map]
    rfl
  · obtain ⟨g1, g2, g3, g4, -⟩ := settings e heap cs
    have hs : s = evaluate e (run e (new heap) cs) x so td gen := run_snoc e (new heap) cs _
    have hl : (symvals (tableNow heap (lastTable cs) cs) x).length = x.atoms.length := List.length_map _
    unfold getRmaxUsed
    rw [show s.cache = _ from v2, if_pos hl.ge, ← hl, List.take_length, hs]
    show some (rmaxUsed e.std ((run e (new heap) cs).heap (run e (new heap) cs).tid) _ (run e (new heap) cs).rmax (run e (new heap) cs).eps) = _
    rw [g1, g2, g3, g4]
    rfl

theorem weight_one (g : Geometry) (hok : g.Ok) (h : ∀ i < g.cnt, ∀ j < g.cnt, g.mult i = g.mult j) (k j : ℕ) (hk : k < g.cnt) (hj : j < g.cnt) : siteWeight g k j = 1 := by
  unfold siteWeight
  split
  · rfl
  · rw [h k hk j hj]
    exact div_self (by exact_mod_cast (mult_pos g hok j hj).ne')

theorem weightedSum_congr (std : SetBV ℝ) (t : Table ℝ) (g : Geometry) (st : ℕ → Site) (mask : ℕ → ℕ → Bool) (R : ℝ) (w w' : ℕ → ℝ) (k : ℕ)
    (h : ∀ j < g.cnt, w j = w' j) : weightedSum std t g st mask R w k = weightedSum std t g st mask R w' k := by
  unfold weightedSum
  refine Finset.sum_congr rfl fun j hj => ?_
  rw [h j (Finset.mem_range.1 hj)]

/-- **C95** (partial: all sites have the same multiplicity, as in every finite and periodic structure; for other crystals see `sums_history`, C82). After any
history of calls, an evaluation in one process leaves the bond valence sum of every site under the present settings. -/
theorem sums_history_partial (e : Env) (heap : ℕ → Table ℝ) (cs : List Call) (hp : Proper e heap cs) (x : RStru) (hok : (geom x).Ok)
    (hmult : ∀ i < x.atoms.length, ∀ j < x.atoms.length, (geom x).mult i = (geom x).mult j)
    (hall : Mask.allStr ∉ x.atoms.map fun a => a.atomtype) (so : List (Int × Bool)) (td : List (Mask.TKey × Bool))
    (hv : (Mask.Op.stru [] so td).Valid (run e (new heap) cs).mask) (gen : ℝ → ℝ → Gen Bond) (hgen : ∀ R, (geom x).IsGen 0 R (gen 0 R))
    (h1 : (lastCpu cs).2 = 1) :
    Evaluated e (tableNow heap (lastTable cs) cs) (maskNow cs) (lastRmax cs) (lastEps cs) x (fun _ _ => 1) (run e (new heap) (cs ++ [.eval x so td gen])) := by
  obtain ⟨⟨h, v, c, r⟩, -⟩ := sums_history e heap cs hp x hok hall so td hv gen hgen h1
  refine ⟨h.trans (map_congr_range _ _ _ fun k hk => weightedSum_congr _ _ _ _ _ _ _ _ _ fun j hj => ?_), v, c, r⟩
  rw [← geom_cnt] at hk hmult
  exact weight_one _ hok hmult k j hk hj

/-! ### Parallel jobs -/

theorem merges_run (e : Env) (s : Obj) (n : ℤ) (parts : List (List ℝ)) (h : (Protocol.mergeAll s.merge n parts).err = none) :
    run e s (parts.map fun p => .merge p n) = { s with merge := (Protocol.mergeAll s.merge n parts).st } := by
  induction parts generalizing s with
  | nil => rfl
  | cons p ps ih =>
    rw [List.map_cons]
    show run e { s with merge := (Protocol.mergeParallelData s.merge p n).st } _ = _
    unfold Protocol.mergeAll at h ⊢
    rcases hm : Protocol.mergeParallelData s.merge p n with ⟨m', _ | err⟩
    · rw [hm] at h
      dsimp only at h ⊢
      exact ih { s with merge := m' } h
    · rw [hm] at h
      cases h

/-- **C95**, parallel. `n` jobs with any histories and the same settings evaluate `x` as CPU 0, ..., n-1 of `n`, with bond generators that visit the bonds in
the same order; a further calculator with any history is given `x` and merges the results in any order.  Its value is the one of a single process, its
valences are those of its own table. -/
theorem sums_parallel (e : Env) (n : ℕ) (hn : 1 ≤ n) (heaps : ℕ → ℕ → Table ℝ) (js : ℕ → List Call) (hp : ∀ i < n, Proper e (heaps i) (js i))
    (t : Table ℝ) (m : Mask.State) (rmax eps : ℝ) (ht : ∀ i < n, tableNow (heaps i) (lastTable (js i)) (js i) = t) (hm : ∀ i < n, maskNow (js i) = m)
    (hr : ∀ i < n, lastRmax (js i) = rmax) (hε : ∀ i < n, lastEps (js i) = eps) (hcpu : ∀ i < n, lastCpu (js i) = ((i : ℤ), (n : ℤ)))
    (x : RStru) (hok : (geom x).Ok) (hall : Mask.allStr ∉ x.atoms.map fun a => a.atomtype) (gen : ℝ → ℝ → Gen Bond) (hgen : ∀ R, (geom x).IsGen 0 R (gen 0 R))
    (so : ℕ → List (Int × Bool)) (td : ℕ → List (Mask.TKey × Bool)) (hv : ∀ i < n, (Mask.Op.stru [] (so i) (td i)).Valid (run e (new (heaps i)) (js i)).mask)
    (parts : List (List ℝ)) (hparts : parts.Perm ((List.range n).map fun i => (run e (new (heaps i)) (js i ++ [.eval x (so i) (td i) gen])).value))
    (heap : ℕ → Table ℝ) (cs : List Call) (so' : List (Int × Bool)) (td' : List (Mask.TKey × Bool)) :
    let s := run e (new heap) (cs ++ .setStructure x so' td' :: parts.map fun p => .merge p n)
    s.value = (List.range x.atoms.length).map (fun k => weightedSum e.std t (geom x) (siteAt x) (maskIn m x) (cutoff e t x rmax eps) (siteWeight (geom x) k) k) ∧
    s.valences = (x.atoms.map fun a => getAtomValence (tableNow heap (lastTable cs) cs) a.atomtype.toList) ∧ s.merge.count = n := by
  intro s
  have hval : ∀ i < n, (run e (new (heaps i)) (js i ++ [.eval x (so i) (td i) gen])).value =
      (List.range x.atoms.length).map (evalBVS e.std t (siteAt x) (jobTrace m x (gen 0 (cutoff e t x rmax eps)) (i : ℤ) (n : ℤ))) := by
    intro i hi
    obtain ⟨v, -, -⟩ := evaluate_value e (heaps i) (js i) (hp i hi) x hall (so i) (td i) (hv i hi) gen
    rw [v, ht i hi, hm i hi, hr i hi, hε i hi, hcpu i hi]
  have hsym : ∀ i j, maskIn m x i j = maskIn m x j i := by
    intro i j
    rw [← hm 0 (by omega)]
    exact maskIn_symm e _ _ (hp 0 (by omega)) x hall i j
  have hlen : parts.length = n := by rw [hparts.length_eq]; simp
  have hpl : ∀ p ∈ parts, p.length = x.atoms.length := by
    intro p h
    obtain ⟨i, hi, rfl⟩ := List.mem_map.1 (hparts.mem_iff.1 h)
    rw [hval i (List.mem_range.1 hi)]
    simp
  set s0 := run e (new heap) cs with hs0
  have hs : s = run e (setStructure s0 x so' td') (parts.map fun p => .merge p n) := by
    show run e (new heap) (cs ++ .setStructure x so' td' :: parts.map fun p => .merge p n) = _
    rw [run_append]
    rfl
  set m0 : Merge ℝ := { s0.merge with value := x.atoms.map fun _ => 0, count := 0 } with hm0
  have hreset : Protocol.resetValue m0 = m0 := by
    unfold Protocol.resetValue
    rw [hm0]
    simp
  have hlen0 : m0.value.length = x.atoms.length := by rw [hm0]; simp
  obtain ⟨a1, a2, a3, a4, -⟩ := Protocol.merge_all_ok m0 parts (fun p h => by rw [hpl p h, hlen0])
  rw [hreset, hlen] at a1 a2 a3 a4
  have hmerge : (setStructure s0 x so' td').merge = m0 := rfl
  have hs' : s = { setStructure s0 x so' td' with merge := (Protocol.mergeAll m0 n parts).st } := by
    rw [hs, merges_run e _ _ _ (by rw [hmerge]; exact a1), hmerge]
  refine ⟨?_, ?_, ?_⟩
  · have hv2 : s.value = (Protocol.mergeAll m0 n parts).st.value := by rw [hs']; rfl
    rw [hv2]
    refine List.ext_getElem (by rw [a2, hlen0]; simp) fun k h1 h2 => ?_
    have hk : k < x.atoms.length := by rw [a2, hlen0] at h1; exact h1
    have h3 := a3 k (by rw [hlen0]; exact hk)
    rw [List.getD_eq_getElem _ _ h1] at h3
    rw [h3, List.getElem_map, List.getElem_range, (hparts.map _).sum_eq, List.map_map,
      ← jobs_sum e t m x hok _ (gen 0 (cutoff e t x rmax eps)) (hgen _) hsym n hn k hk]
    congr 1
    refine List.map_congr_left fun i hi => ?_
    show (run e (new (heaps i)) (js i ++ [.eval x (so i) (td i) gen])).value.getD k 0 = _
    rw [hval i (List.mem_range.1 hi), List.getD_eq_getElem _ _ (by simpa using hk), List.getElem_map, List.getElem_range]
  · obtain ⟨-, -, g3, g4, -⟩ := settings e heap cs
    rw [hs']
    show (x.atoms.map _).map Prod.snd = _
    rw [List.map_map]
    show (x.atoms.map fun a => getAtomValence (s0.heap s0.tid) a.atomtype.toList) = _
    rw [g4, g3]
  · rw [hs']
    exact a4

/-! ### Reading the results -/

/-- **C95**: a call that throws changes nothing. -/
theorem throw_unchanged (e : Env) (s : Obj) (c : Call) (h : (step e s c).err ≠ none) : (step e s c).st = s := by
  cases c with
  | setPrecision r =>
    simp only [step] at h ⊢
    split at h
    · rename_i h'; rw [if_pos h']
    · exact absurd rfl h
  | setTable t =>
    cases t with
    | none => rfl
    | some t => exact absurd rfl h
  | setType t =>
    simp only [step] at h ⊢
    split
    · rfl
    · rfl
  | parallel i n =>
    simp only [step] at h ⊢
    split at h
    · rename_i h'; rw [if_pos h']
    · exact absurd rfl h
  | merge p n =>
    show ({ s with merge := (Protocol.mergeParallelData s.merge p n).st } : Obj) = s
    have h' : (Protocol.mergeParallelData s.merge p n).err ≠ none := h
    have : (Protocol.mergeParallelData s.merge p n).st = s.merge := by
      unfold Protocol.mergeParallelData Protocol.executeMerge at h' ⊢
      split at h'
      · rename_i hc; rw [if_pos hc]
      · rename_i hc
        rw [if_neg hc]
        split at h'
        · rename_i m' er heq
          split at heq
          · cases heq
            rfl
          · cases heq
        · exact absurd rfl h'
    rw [this]
  | setRmin r => exact absurd rfl h
  | setRmax r => exact absurd rfl h
  | editTable u op => exact absurd rfl h
  | mask op => exact absurd rfl h
  | setStructure x so td => exact absurd rfl h
  | eval x so td gen => exact absurd rfl h

/-- Calls that only set something. -/
def Call.Setting : Call → Prop
  | .setStructure _ _ _ => False
  | .eval _ _ _ _ => False
  | .merge _ _ => False
  | _ => True

theorem setting_keeps (e : Env) (s : Obj) (cs : List Call) (h : ∀ c ∈ cs, c.Setting) :
    (run e s cs).merge = s.merge ∧ (run e s cs).cache = s.cache ∧ (run e s cs).stru = s.stru := by
  induction cs generalizing s with
  | nil => exact ⟨rfl, rfl, rfl⟩
  | cons c cs ih =>
    obtain ⟨i1, i2, i3⟩ := ih (step e s c).st fun c hc => h c (List.mem_cons_of_mem _ hc)
    have key : (step e s c).st.merge = s.merge ∧ (step e s c).st.cache = s.cache ∧ (step e s c).st.stru = s.stru := by
      have hc := h c (List.mem_cons_self ..)
      cases c with
      | setPrecision r => simp only [step]; split <;> exact ⟨rfl, rfl, rfl⟩
      | setTable t => cases t <;> exact ⟨rfl, rfl, rfl⟩
      | setType t => simp only [step]; split <;> exact ⟨rfl, rfl, rfl⟩
      | parallel i n => simp only [step]; split <;> exact ⟨rfl, rfl, rfl⟩
      | setRmin r => exact ⟨rfl, rfl, rfl⟩
      | setRmax r => exact ⟨rfl, rfl, rfl⟩
      | editTable u op => exact ⟨rfl, rfl, rfl⟩
      | mask op => exact ⟨rfl, rfl, rfl⟩
      | setStructure x so td => exact absurd hc id
      | eval x so td gen => exact absurd hc id
      | merge p n => exact absurd hc id
    exact ⟨i1.trans key.1, i2.trans key.2.1, i3.trans key.2.2⟩

/-- **C95**: results read after further settings are those of the evaluation; `getRmaxUsed()` combines the present limit, precision and table with the valences of the
evaluation. -/
theorem reads_after_settings (e : Env) (heap : ℕ → Table ℝ) (cs : List Call) (t : Table ℝ) (m : Mask.State) (rmax eps : ℝ) (x : RStru) (w : ℕ → ℕ → ℝ)
    (h : Evaluated e t m rmax eps x w (run e (new heap) cs)) (ds : List Call) (hd : ∀ c ∈ ds, c.Setting) :
    let s := run e (new heap) (cs ++ ds)
    Evaluated e t m rmax eps x w s ∧
    getRmaxUsed e s x.atoms.length = some (rmaxUsed e.std (tableNow heap (lastTable (cs ++ ds)) (cs ++ ds)) (e.order (symvals t x)) (lastRmax (cs ++ ds)) (lastEps (cs ++ ds))) := by
  intro s
  obtain ⟨h1, h2, h3⟩ := setting_keeps e (run e (new heap) cs) ds hd
  have hs : s = run e (run e (new heap) cs) ds := run_append e _ cs ds
  rw [← hs] at h1 h2 h3
  have hc : s.cache = symvals t x := h2.trans h.cache
  refine ⟨⟨?_, ?_, hc, h3.trans h.stru⟩, ?_⟩
  · show s.merge.value = _
    rw [h1]; exact h.value
  · show s.cache.map Prod.snd = _
    rw [h2]; exact h.valences
  · obtain ⟨g1, g2, g3, g4, -⟩ := settings e heap (cs ++ ds)
    have hl : (symvals t x).length = x.atoms.length := List.length_map _
    unfold getRmaxUsed
    rw [hc, if_pos hl.ge, ← hl, List.take_length]
    show some (rmaxUsed e.std (s.heap s.tid) _ s.rmax s.eps) = _
    rw [g1, g2, g3, g4]

/-- **C95**: the differences and their mean square follow from the sums and the valences; the weights are the numbers of atoms. -/
theorem diffs_of_sums (e : Env) (t : Table ℝ) (m : Mask.State) (rmax eps : ℝ) (x : RStru) (w : ℕ → ℕ → ℝ) (s : Obj) (h : Evaluated e t m rmax eps x w s) :
    let val := fun k => weightedSum e.std t (geom x) (siteAt x) (maskIn m x) (cutoff e t x rmax eps) (w k) k
    s.bvdiff x.atoms.length = some ((List.range x.atoms.length).map fun i => BV.bvdiff t (siteAt x) val i) ∧
    s.bvmsdiff x = some (BV.bvmsdiff t (siteAt x) x.atoms.length val) ∧ s.bvrmsdiff x = some (BV.bvrmsdiff t (siteAt x) x.atoms.length val) := by
  intro val
  have hc : s.cache.length = x.atoms.length := by rw [h.cache]; exact List.length_map _
  have hv : s.value.length = x.atoms.length := by rw [h.value]; simp
  have h1 : s.bvdiff x.atoms.length = some ((List.range x.atoms.length).map fun i => BV.bvdiff t (siteAt x) val i) := by
    unfold Obj.bvdiff
    rw [if_pos ⟨hc.ge, hv.ge⟩]
    congr 1
    refine map_congr_range _ _ _ fun i hi => ?_
    unfold BV.bvdiff
    rw [h.valences, h.value, List.getD_eq_getElem _ _ (by simpa using hi), List.getD_eq_getElem _ _ (by simpa using hi), List.getElem_map, List.getElem_map,
      List.getElem_range, siteAt_some x i hi]
    rfl
  have h2 : s.bvmsdiff x = some (BV.bvmsdiff t (siteAt x) x.atoms.length val) := by
    unfold Obj.bvmsdiff
    rw [h1]
    show some _ = some _
    congr 1
    unfold BV.bvmsdiff
    dsimp only
    congr 2
    have hf : ∀ (l : List ℕ) (a : ℝ), (∀ i ∈ l, i < x.atoms.length) →
        l.foldl (fun a i => a + ((siteAt x i).mult : ℝ) * (siteAt x i).occ * ((List.range x.atoms.length).map fun i => BV.bvdiff t (siteAt x) val i).getD i 0 *
          ((List.range x.atoms.length).map fun i => BV.bvdiff t (siteAt x) val i).getD i 0) a =
        l.foldl (fun s i => s + ((siteAt x i).mult : ℝ) * (siteAt x i).occ * BV.bvdiff t (siteAt x) val i * BV.bvdiff t (siteAt x) val i) a := by
      intro l
      induction l with
      | nil => intro a _; rfl
      | cons i l ih =>
        intro a hl
        have hi := hl i (List.mem_cons_self ..)
        rw [List.foldl_cons, List.foldl_cons, ih _ fun j hj => hl j (List.mem_cons_of_mem _ hj), List.getD_eq_getElem _ _ (by simpa using hi),
          List.getElem_map, List.getElem_range]
    exact hf _ _ fun i hi => List.mem_range.1 hi
  refine ⟨h1, h2, ?_⟩
  unfold Obj.bvrmsdiff
  rw [h2]
  rfl

/-- The differences read past the end of the arrays when an atom has been added to the structure after the evaluation: there is no result. -/
theorem appended_atom_bug (e : Env) (t : Table ℝ) (m : Mask.State) (rmax eps : ℝ) (x y : RStru) (w : ℕ → ℕ → ℝ) (s : Obj) (h : Evaluated e t m rmax eps x w s)
    (hy : x.atoms.length < y.atoms.length) : s.bvdiff y.atoms.length = none ∧ s.bvmsdiff y = none ∧ getRmaxUsed e s y.atoms.length = none := by
  have hc : s.cache.length = x.atoms.length := by rw [h.cache]; exact List.length_map _
  have h1 : s.bvdiff y.atoms.length = none := by
    unfold Obj.bvdiff
    rw [if_neg fun hh => by have := hh.1; omega]
  refine ⟨h1, ?_, ?_⟩
  · unfold Obj.bvmsdiff; rw [h1]; rfl
  · unfold getRmaxUsed
    rw [if_neg (by omega)]

/-- `valences()` after `setAtomValence` on the table in use keeps the valences of the evaluation, whatever is set. -/
theorem late_valence_bug (e : Env) (heap : ℕ → Table ℝ) (cs : List Call) (t : Table ℝ) (m : Mask.State) (rmax eps : ℝ) (x : RStru) (w : ℕ → ℕ → ℝ)
    (h : Evaluated e t m rmax eps x w (run e (new heap) cs)) (a : Atom) (ha : a ∈ x.atoms) (v : ℤ) (hv : v ≠ getAtomValence t a.atomtype.toList) :
    (run e (new heap) (cs ++ [.editTable (lastTable cs) (.setAtomValence a.atomtype.toList v)])).valences ≠
      x.atoms.map fun b => getAtomValence (tableNow heap (lastTable cs) (cs ++ [.editTable (lastTable cs) (.setAtomValence a.atomtype.toList v)])) b.atomtype.toList := by
  obtain ⟨r, -⟩ := reads_after_settings e heap cs t m rmax eps x w h [.editTable (lastTable cs) (.setAtomValence a.atomtype.toList v)]
    (by intro c hc; rw [List.mem_singleton] at hc; subst hc; trivial)
  rw [r.valences]
  intro heq
  obtain ⟨i, hi, rfl⟩ := List.getElem_of_mem ha
  have := congrArg (fun l => l[i]?) heq
  simp only [List.getElem?_map, List.getElem?_eq_getElem hi, Option.map_some, Option.some.injEq] at this
  apply hv
  rw [this]
  have ht : tableNow heap (lastTable cs) (cs ++ [.editTable (lastTable cs) (.setAtomValence (x.atoms[i]).atomtype.toList v)]) =
      tstep (tableNow heap (lastTable cs) cs) (.setAtomValence (x.atoms[i]).atomtype.toList v) := by
    unfold tableNow tableCalls
    rw [List.filterMap_append, List.foldl_append]
    simp
  rw [ht]
  show v = getAtomValence { tableNow heap (lastTable cs) cs with valence := AssocMap.put (tableNow heap (lastTable cs) cs).valence (x.atoms[i]).atomtype.toList v } _
  unfold getAtomValence
  dsimp only
  rw [AssocMap.find_put]
  simp

/-! ### The hypotheses can be met -/

/-- Visit the pairs in the order of the sites. -/
def exEnv (std : SetBV ℝ) : Env := ⟨std, List.dedup⟩

theorem exEnv_ok (std : SetBV ℝ) : (exEnv std).Ok := fun l => ⟨List.nodup_dedup l, fun _ => List.mem_dedup⟩

/-- Two ions at distance 2. -/
def exIons : RStru := ⟨.atomic, [⟨"Na1+", 0, 0, 0, 1, false, ⟨0, 0, 0, 0, 0, 0, 0, 0, 0⟩⟩, ⟨"Cl1-", 2, 0, 0, 1, false, ⟨0, 0, 0, 0, 0, 0, 0, 0, 0⟩⟩]⟩

/-- The generator of a structure. -/
noncomputable def exGen (x : RStru) : ℝ → ℝ → Gen Bond := fun lo hi => (gen_exists (geom x) lo hi).choose

/-- A history with masks, a rejected precision, a change of tables and an evaluation, before the last evaluation. -/
noncomputable def exCalls : List Call :=
  [.mask (.typ "Cl1-" "Cl1-" false), .setRmax 10, .eval exIons [] [(("Cl1-", "Cl1-"), false)] (exGen exIons), .setPrecision (-1), .setTable (some 1),
    .editTable 1 (.setAtomValence "Na1+".toList 3), .setTable none, .setType 2]

theorem split_cases {cs : List Call} {c : Call} {pre post : List Call} (h : cs = pre ++ c :: post) :
    pre.length < cs.length ∧ pre = cs.take pre.length ∧ cs[pre.length]? = some c := by
  subst h
  simp

example (std : SetBV ℝ) (heap : ℕ → Table ℝ) : Proper (exEnv std) heap exCalls ∧ (geom exIons).Ok ∧ (∀ R, (geom exIons).IsGen 0 R (exGen exIons 0 R)) ∧
    (Mask.Op.stru [] [] [(("Cl1-", "Cl1-"), false)]).Valid (run (exEnv std) (new heap) exCalls).mask ∧ (lastCpu exCalls).2 = 1 ∧
    lastRmax exCalls = 10 ∧ lastTable exCalls = 1 ∧ lastEps exCalls = 1 / 10 ^ 5 ∧ tableCalls 1 exCalls = [.setAtomValence "Na1+".toList 3] := by
  refine ⟨⟨?_, ?_, ?_⟩, trivial, fun R => (gen_exists _ _ _).choose_spec, ?_, rfl, rfl, rfl, ?_, rfl⟩
  · intro pre op post h
    obtain ⟨h1, h2, h3⟩ := split_cases h
    have hl : exCalls.length = 8 := rfl
    rw [hl] at h1
    generalize pre.length = n at h1 h2 h3
    subst h2
    have : n = 0 := by
      rcases n with _ | _ | _ | _ | _ | _ | _ | _ | n
      · rfl
      all_goals cases h3
    subst this
    cases h3
    refine ⟨trivial, ?_⟩
    intro t _ y _
    exact fun hh => by cases hh
  · intro pre x so td post h
    obtain ⟨h1, h2, h3⟩ := split_cases h
    have hl : exCalls.length = 8 := rfl
    rw [hl] at h1
    generalize pre.length = n at h1 h2 h3
    rcases n with _ | _ | _ | _ | _ | _ | _ | _ | n
    all_goals cases h3
  · intro pre x so td gen post h
    obtain ⟨h1, h2, h3⟩ := split_cases h
    have hl : exCalls.length = 8 := rfl
    rw [hl] at h1
    generalize pre.length = n at h1 h2 h3
    have : n = 2 := by
      rcases n with _ | _ | _ | _ | _ | _ | _ | _ | n
      all_goals first | (cases h3; done) | rfl
    subst this
    cases h3
    subst h2
    have : (run (exEnv std) (new heap) (exCalls.take 2)).mask = Mask.step Mask.init (.typ "Cl1-" "Cl1-" false) := rfl
    rw [this]
    exact ⟨List.Perm.refl _, List.Perm.refl _⟩
  · have hm : (run (exEnv std) (new heap) exCalls).mask =
        Mask.setStructure [] [(("Cl1-", "Cl1-"), false)] (Mask.step Mask.init (.typ "Cl1-" "Cl1-" false)) (exIons.atoms.map fun a => a.atomtype) := by
      have hq : ∀ s : Obj, (step (exEnv std) s (.setPrecision (-1))).st.mask = s.mask := by
        intro s
        simp only [step]
        split <;> rfl
      show (step (exEnv std) _ (.setPrecision (-1))).st.mask = _
      rw [hq]
      rfl
    rw [hm]
    exact ⟨List.Perm.refl _, List.Perm.refl _⟩
  · have h : ¬ (PDFGrid.eps : ℝ) < -1 := by unfold PDFGrid.eps; norm_num
    simp [lastEps, exCalls, Setters.throwsNotPositive, h]

/-- The two ions with bond parameters Ro = 2, B = 1: the sums are +1 and -1. -/
example (R : ℝ) (hR : 2 ≤ R) : let t : Table ℝ := ⟨[], []⟩; let std : SetBV ℝ := [(⟨"Na".toList, 1, "Cl".toList, -1⟩, ⟨2, 1, []⟩)]
    weightedSum std t (geom exIons) (siteAt exIons) (maskIn Mask.init exIons) R (fun _ => 1) 0 = 1 ∧
    weightedSum std t (geom exIons) (siteAt exIons) (maskIn Mask.init exIons) R (fun _ => 1) 1 = -1 := by
  intro t std
  have s0 : siteAt exIons 0 = ⟨"Na1+".toList, 1, 1⟩ := by
    rw [siteAt_some exIons 0 (by decide)]
    show (⟨_, ((1 : ℚ) : ℝ), 1⟩ : Site) = _
    norm_num [exIons]
  have s1 : siteAt exIons 1 = ⟨"Cl1-".toList, 1, 1⟩ := by
    rw [siteAt_some exIons 1 (by decide)]
    show (⟨_, ((1 : ℚ) : ℝ), 1⟩ : Site) = _
    norm_num [exIons]
  have v0 : symval t (siteAt exIons 0) = ("Na".toList, 1) := by rw [s0]; decide +kernel
  have v1 : symval t (siteAt exIons 1) = ("Cl".toList, -1) := by rw [s1]; decide +kernel
  have hm : ∀ i j, maskIn Mask.init exIons i j = true := fun _ _ => rfl
  have p0 : posOf exIons.atoms 0 = ⟨0, 0, 0⟩ := by
    show (⟨((0 : ℚ) : ℝ), ((0 : ℚ) : ℝ), ((0 : ℚ) : ℝ)⟩ : V3) = _
    norm_num
  have p1 : posOf exIons.atoms 1 = ⟨2, 0, 0⟩ := by
    show (⟨((2 : ℚ) : ℝ), ((0 : ℚ) : ℝ), ((0 : ℚ) : ℝ)⟩ : V3) = _
    norm_num
  have d01 : V3.norm (V3.sub (posOf exIons.atoms 1) (posOf exIons.atoms 0)) = 2 := by
    rw [p0, p1]
    simp [V3.norm, V3.sub, V3.dot]
  have d10 : V3.norm (V3.sub (posOf exIons.atoms 0) (posOf exIons.atoms 1)) = 2 := by
    rw [p0, p1]
    simp [V3.norm, V3.sub, V3.dot]
  have d00 : ∀ i, V3.norm (V3.sub (posOf exIons.atoms i) (posOf exIons.atoms i)) = 0 := by
    intro i
    simp [V3.norm, V3.sub, V3.dot]
  have hb : bondVal std t (siteAt exIons) 1 0 2 = 1 := by
    unfold bondVal
    have hl : lookupSymbols std t (siteAt exIons 1).sym (siteAt exIons 0).sym = some (⟨"Na".toList, 1, "Cl".toList, -1⟩, ⟨2, 1, []⟩) := by
      show lookup std t (symval t (siteAt exIons 1)).1 (symval t (siteAt exIons 1)).2 (symval t (siteAt exIons 0)).1 (symval t (siteAt exIons 0)).2 = _
      rw [v0, v1]
      rfl
    rw [hl]
    simp
  have hc : (geom exIons).cnt = 2 := rfl
  have hg : ∀ i j F, (geom exIons).sum i j F = F (V3.sub (posOf exIons.atoms j) (posOf exIons.atoms i)) := fun _ _ _ => rfl
  have hz : ∀ k j, neighbour std t (siteAt exIons) R k j 0 = 0 := by
    intro k j
    unfold neighbour
    rw [if_neg fun h => absurd h.1 (by norm_num)]
  unfold weightedSum
  simp only [hc, hm, hg, if_true, Finset.sum_range_succ, Finset.sum_range_zero, d00, d01, d10, hz, zero_add, add_zero, one_mul]
  unfold neighbour
  have h2 : (1 : ℝ) / 2 ^ 26 < 2 ∧ (2 : ℝ) ≤ R := ⟨by norm_num, hR⟩
  rw [if_pos h2, if_pos h2]
  have m1 : max 0 1 = 1 := rfl
  have m2 : min 0 1 = 0 := rfl
  have m3 : max 1 0 = 1 := rfl
  have m4 : min 1 0 = 0 := rfl
  unfold pairVal siteSign
  simp only [m1, m2, m3, m4]
  have w0 : getAtomValence t (siteAt exIons 0).sym = 1 := congrArg Prod.snd v0
  have w1 : getAtomValence t (siteAt exIons 1).sym = -1 := congrArg Prod.snd v1
  rw [hb, w0, w1, s0, s1]
  norm_num

/-- Jobs as in `sums_parallel`: new calculators that are told their CPU. -/
example (std : SetBV ℝ) (heap : ℕ → Table ℝ) (i : ℕ) : Proper (exEnv std) heap [.parallel i 3] ∧ lastCpu [.parallel i 3] = ((i : ℤ), 3) ∧
    (Mask.Op.stru [] [] []).Valid (run (exEnv std) (new heap) [.parallel i 3]).mask := by
  refine ⟨⟨?_, ?_, ?_⟩, rfl, ?_⟩
  · intro pre op post h
    obtain ⟨h1, h2, h3⟩ := split_cases h
    generalize pre.length = n at h1 h2 h3
    rcases n with _ | n <;> cases h3
  · intro pre x so td post h
    obtain ⟨h1, h2, h3⟩ := split_cases h
    generalize pre.length = n at h1 h2 h3
    rcases n with _ | n <;> cases h3
  · intro pre x so td gen post h
    obtain ⟨h1, h2, h3⟩ := split_cases h
    generalize pre.length = n at h1 h2 h3
    rcases n with _ | n <;> cases h3
  · exact ⟨List.Perm.refl _, List.Perm.refl _⟩

end Verif.BVHist
