import Verif.Model.CounterHistory
import Verif.Props.BVHistory
import Verif.Props.PairCounter
import Verif.Props.GeometryList
import Verif.Props.PartsMore
/-! C102: the number of pairs after a history of calls, from parallel jobs, and by parts. -/
set_option linter.unusedSectionVars false
namespace Verif.CountHist
open Verif.BondGen Verif.Eval Verif.Diff Verif.KindDiff Verif.Geo Verif.R3 Verif.Lattice
open Verif.Protocol (Out Err Merge)
open Verif.BVHist (maskIn)
open Verif.Wrappers (countLoop toInt)
open scoped BigOperators

/-! ### Specification -/

/-- The number of ways to go from the atom of a site to an atom of a site that the mask lets through, by a vector with a length in range. -/
noncomputable def neighbours (g : Geometry) (lo hi : ℝ) (mask : ℕ → ℕ → Bool) : ℕ :=
  ∑ i ∈ Finset.range g.cnt, ∑ j ∈ Finset.range g.cnt, if mask i j = true then (vecs g lo hi i j).length else 0

/-- The same with every pair of different sites taken once, from the later of the two, and the pairs of a site with its own images halved. -/
noncomputable def halfNeighbours (g : Geometry) (lo hi : ℝ) (mask : ℕ → ℕ → Bool) : ℝ :=
  ∑ i ∈ Finset.range g.cnt, ∑ j ∈ Finset.range g.cnt, if j ≤ i ∧ mask i j = true then (if i = j then 1 / 2 else 1) * ((vecs g lo hi i j).length : ℝ) else 0

/-- The last lower limit set. -/
def lastRmin : List Call → ℝ := fun cs => cs.foldl (fun r c => match c with | .setRmin x => x | _ => r) 0

/-- The last upper limit set. -/
def lastRmax : List Call → ℝ := fun cs => cs.foldl (fun r c => match c with | .setRmax x => x | _ => r) 1000

/-- The effect of a call on the masks, structures aside. -/
def maskStep (m : Mask.State) : Call → Mask.State
  | .mask op => Mask.step m op
  | _ => m

/-- The masks after the mask calls alone. -/
def maskNow (cs : List Call) : Mask.State := cs.foldl maskStep Mask.init

/-- The last accepted CPU assignment. -/
def lastCpu : List Call → Int × Int := fun cs => cs.foldl (fun r c => match c with | .parallel i n => if n < 1 then r else (i, n) | _ => r) (0, 1)

/-- Mask calls are such that the masks do not depend on structures seen before, none contradicts an "all" type mask (C92), and the mask containers are
visited once each. -/
def Proper (cs : List Call) : Prop :=
  (∀ pre op post, cs = pre ++ .mask op :: post → op.Simple (maskNow pre) ∧ op.Consistent (maskNow pre)) ∧
  (∀ pre x so td post, cs = pre ++ .setStructure x so td :: post → (Mask.Op.stru [] so td).Valid (run new pre).mask) ∧
  (∀ pre x so td gen post, cs = pre ++ .eval x so td gen :: post → (Mask.Op.stru [] so td).Valid (run new pre).mask)

/-! ### Settings -/

theorem run_append (s : Obj) (a b : List Call) : run s (a ++ b) = run (run s a) b := by
  induction a generalizing s with
  | nil => rfl
  | cons c a ih => exact ih _

theorem run_snoc (s : Obj) (a : List Call) (c : Call) : run s (a ++ [c]) = (step (run s a) c).st := run_append s a [c]

theorem addPairs_length {B : Type} (v : List ℝ) (tr : List (Contrib B)) : (addPairs v tr).length = v.length := by
  cases v <;> rfl

/-- The settings after any history of calls are those last accepted; the value always has one element. -/
theorem settings (cs : List Call) :
    let s := run new cs
    s.rmin = lastRmin cs ∧ s.rmax = lastRmax cs ∧ (s.cpuindex, s.ncpu) = lastCpu cs ∧ s.value.length = 1 := by
  induction cs using List.reverseRecOn with
  | nil => exact ⟨rfl, rfl, rfl, rfl⟩
  | append_singleton cs c ih =>
    obtain ⟨h1, h2, h5, h6⟩ := ih
    simp only [run_snoc, lastRmin, lastRmax, lastCpu, List.foldl_append, List.foldl_cons, List.foldl_nil]
    simp only [lastRmin, lastRmax, lastCpu] at h1 h2 h5
    have h6' : (run new cs).merge.value.length = 1 := h6
    cases c with
    | setRmin r => exact ⟨rfl, h2, h5, h6⟩
    | setRmax r => exact ⟨h1, rfl, h5, h6⟩
    | mask op => exact ⟨h1, h2, h5, h6⟩
    | setStructure x so td => exact ⟨h1, h2, h5, by show ((run new cs).merge.value.map _).length = 1; rw [List.length_map, h6']⟩
    | eval x so td gen =>
      refine ⟨h1, h2, h5, ?_⟩
      show (addPairs ((run new cs).merge.value.map _) _).length = 1
      rw [addPairs_length, List.length_map, h6']
    | setType t =>
      simp only [step]
      split <;> exact ⟨h1, h2, h5, h6⟩
    | parallel i n =>
      simp only [step]
      split
      · exact ⟨h1, h2, h5, h6⟩
      · exact ⟨h1, h2, rfl, h6⟩
    | merge p n =>
      refine ⟨h1, h2, h5, ?_⟩
      show (Protocol.mergeParallelData (run new cs).merge p n).st.value.length = 1
      by_cases he : (run new cs).merge.count < n ∧ p.length = (run new cs).merge.value.length
      · rw [(Protocol.merge_ok _ p n he.1 he.2).2.1, h6']
      · have : (Protocol.mergeParallelData (run new cs).merge p n).st.value = (run new cs).merge.value := by
          unfold Protocol.mergeParallelData Protocol.executeMerge
          by_cases hc : (run new cs).merge.count ≥ n
          · rw [if_pos hc]
          · rw [if_neg hc, if_pos fun hl => he ⟨not_le.1 hc, hl⟩]
        rw [this, h6']

theorem proper_prefix {cs ds : List Call} (h : Proper (cs ++ ds)) : Proper cs :=
  ⟨fun pre op post hc => h.1 pre op (post ++ ds) (by rw [hc]; simp), fun pre x so td post hc => h.2.1 pre x so td (post ++ ds) (by rw [hc]; simp),
    fun pre x so td gen post hc => h.2.2 pre x so td gen (post ++ ds) (by rw [hc]; simp)⟩

theorem masks_run (cs : List Call) (h : Proper cs) : Mask.Runs (run new cs).mask (maskNow cs) := by
  induction cs using List.reverseRecOn with
  | nil => exact Mask.Runs.init
  | append_singleton cs c ih =>
    have ih := ih (proper_prefix h)
    rw [run_snoc]
    have em : maskNow (cs ++ [c]) = maskStep (maskNow cs) c := by
      unfold maskNow
      rw [List.foldl_append]
      rfl
    rw [em]
    cases c with
    | setRmin r => exact ih
    | setRmax r => exact ih
    | mask op =>
      obtain ⟨h1, h2⟩ := h.1 cs op [] rfl
      exact Mask.Runs.call ih op h1 h2
    | setStructure x so td => exact Mask.Runs.stru ih _ so td (h.2.1 cs x so td [] rfl)
    | eval x so td gen => exact Mask.Runs.stru ih _ so td (h.2.2 cs x so td gen [] rfl)
    | setType t =>
      simp only [step]
      split <;> exact ih
    | parallel i n =>
      simp only [step]
      split <;> exact ih
    | merge p n => exact ih

/-! ### The sums -/

theorem countLoop_perm {B : Type} {a b : List (Contrib B)} (h : a.Perm b) (v : ℝ) : countLoop a v = countLoop b v := by
  rw [Wrappers.countLoop_eq, Wrappers.countLoop_eq, Eval.traceSum_perm _ h]

theorem countLoop_append {B : Type} (a b : List (Contrib B)) (v : ℝ) : countLoop (a ++ b) v = countLoop b (countLoop a v) := List.foldl_append

theorem countLoop_add {B : Type} (a : List (Contrib B)) (v : ℝ) : countLoop a v = v + countLoop a 0 := by
  rw [Wrappers.countLoop_eq, Wrappers.countLoop_eq a 0, zero_add]

theorem countLoop_flatMap {B : Type} (l : List ℕ) (f : ℕ → List (Contrib B)) : countLoop (l.flatMap f) 0 = (l.map fun i => countLoop (f i) 0).sum := by
  induction l with
  | nil => rfl
  | cons i l ih => rw [List.flatMap_cons, countLoop_append, countLoop_add, ih, List.map_cons, List.sum_cons]

/-- The contributions of a serial evaluation, counted. -/
theorem loop_counts (g : Geometry) (hok : g.Ok) (lo hi : ℝ) (gen : Gen Bond) (hgen : g.IsGen lo hi gen) (rule : Bool) (use : ℕ → ℕ → Bool) (n : ℤ) :
    countLoop (basicTrace rule (mapGen (fun _ => ()) gen) false use g.cnt n 1) 0 = halfNeighbours g lo hi use := by
  rw [countLoop_perm (trace_vecs g hok lo hi gen hgen (fun _ => ()) (fun _ => ()) (fun _ _ => rfl) rule false use n)]
  unfold specContribs halfNeighbours
  rw [countLoop_flatMap, finset_sum_range]
  refine congrArg List.sum (List.map_congr_left fun i _ => ?_)
  rw [countLoop_flatMap, finset_sum_range]
  refine congrArg List.sum (List.map_congr_left fun j _ => ?_)
  simp only [Bool.false_eq_true, false_or]
  split
  · have key : ∀ (k : Int) (l : List V3), countLoop ((l.map fun _ => ()).map fun b => (⟨i, j, k, b⟩ : Contrib Unit)) 0 = (k : ℝ) / 2 * l.length := by
      intro k l
      induction l with
      | nil => simp [countLoop]
      | cons v l ih =>
        show countLoop ((l.map fun _ => ()).map fun b => (⟨i, j, k, b⟩ : Contrib Unit)) (0 + (k : ℝ) / 2) = _
        rw [countLoop_add, ih, List.length_cons]
        push_cast
        ring
    rw [key]
    by_cases h : i = j
    · simp [h]
    · simp [h]
  · rfl

theorem vecs_swap (g : Geometry) (hok : g.Ok) (lo hi : ℝ) (hmult : ∀ i < g.cnt, ∀ j < g.cnt, g.mult i = g.mult j) (i j : ℕ) (h1 : i < g.cnt) (h2 : j < g.cnt) :
    (vecs g lo hi i j).length = (vecs g lo hi j i).length := by
  obtain ⟨gen, hgen⟩ := gen_exists g lo hi
  obtain ⟨bonds, hd⟩ := delivers g hok lo hi gen hgen
  have e : ∀ a < g.cnt, ∀ b < g.cnt, ((vecs g lo hi a b).length : ℝ) = g.sum a b (Geo.cut lo hi fun _ => 1) := by
    intro a ha b hb
    rw [← hd.sum a ha b hb, ← (delivers_vecs hok hd a b ha hb).length_eq, List.length_map, List.map_const', List.sum_replicate, nsmul_eq_mul, mul_one]
  have hb := balance g hok lo hi (fun _ => 1) i j h1 h2
  rw [hmult i h1 j h2, ← e i h1 j h2, ← e j h2 i h1] at hb
  have hm : (g.mult j : ℝ) ≠ 0 := by exact_mod_cast (BVHist.mult_pos g hok j h2).ne'
  exact_mod_cast mul_left_cancel₀ hm hb

/-- With equal multiplicities both countings agree: a pair counts once, whatever end it is seen from. -/
theorem half_of_all (g : Geometry) (hok : g.Ok) (lo hi' : ℝ) (hmult : ∀ i < g.cnt, ∀ j < g.cnt, g.mult i = g.mult j) (mask : ℕ → ℕ → Bool)
    (hm : ∀ i j, mask i j = mask j i) : halfNeighbours g lo hi' mask = (neighbours g lo hi' mask : ℝ) / 2 := by
  set F : ℕ → ℕ → ℝ := fun i j => if i < g.cnt ∧ j < g.cnt then if mask i j = true then ((vecs g lo hi' i j).length : ℝ) else 0 else 0 with hF
  have hs : ∀ i j, F i j = F j i := by
    intro i j
    simp only [hF]
    by_cases h : i < g.cnt ∧ j < g.cnt
    · rw [if_pos h, if_pos h.symm, hm i j, vecs_swap g hok lo hi' hmult i j h.1 h.2]
    · rw [if_neg h, if_neg fun x => h x.symm]
  have h1 : halfNeighbours g lo hi' mask = ∑ i ∈ Finset.range g.cnt, ∑ j ∈ Finset.range g.cnt, if j ≤ i then (if i = j then 1 / 2 else 1) * F i j else 0 := by
    unfold halfNeighbours
    refine Finset.sum_congr rfl fun i hi => Finset.sum_congr rfl fun j hj => ?_
    have e : F i j = if mask i j = true then ((vecs g lo hi' i j).length : ℝ) else 0 := if_pos ⟨Finset.mem_range.1 hi, Finset.mem_range.1 hj⟩
    rw [e]
    by_cases h : j ≤ i <;> by_cases h' : mask i j = true <;> simp [h, h']
  have h2 : (neighbours g lo hi' mask : ℝ) = ∑ i ∈ Finset.range g.cnt, ∑ j ∈ Finset.range g.cnt, F i j := by
    unfold neighbours
    push_cast
    refine Finset.sum_congr rfl fun i hi => Finset.sum_congr rfl fun j hj => ?_
    have e : F i j = if mask i j = true then ((vecs g lo hi' i j).length : ℝ) else 0 := if_pos ⟨Finset.mem_range.1 hi, Finset.mem_range.1 hj⟩
    rw [e]
  rw [h1, h2]
  have key : ∑ i ∈ Finset.range g.cnt, ∑ j ∈ Finset.range g.cnt, (if j ≤ i then (if i = j then 1 / 2 else 1) * F i j else 0) =
      ∑ i ∈ Finset.range g.cnt, ∑ j ∈ Finset.range g.cnt, (if i ≤ j then (if i = j then 1 / 2 else 1) * F i j else 0) := by
    rw [Finset.sum_comm]
    refine Finset.sum_congr rfl fun i _ => Finset.sum_congr rfl fun j _ => ?_
    rw [hs j i]
    by_cases h : i = j
    · simp [h]
    · have h' : ¬ j = i := fun x => h x.symm
      simp [h, h']
  have sum : ∑ i ∈ Finset.range g.cnt, ∑ j ∈ Finset.range g.cnt, F i j =
      ∑ i ∈ Finset.range g.cnt, ∑ j ∈ Finset.range g.cnt, (if j ≤ i then (if i = j then 1 / 2 else 1) * F i j else 0) +
      ∑ i ∈ Finset.range g.cnt, ∑ j ∈ Finset.range g.cnt, (if i ≤ j then (if i = j then 1 / 2 else 1) * F i j else 0) := by
    rw [← Finset.sum_add_distrib]
    refine Finset.sum_congr rfl fun i _ => ?_
    rw [← Finset.sum_add_distrib]
    refine Finset.sum_congr rfl fun j _ => ?_
    rcases lt_trichotomy i j with h | h | h
    · rw [if_neg (by omega), if_pos h.le, if_neg (by omega)]; ring
    · subst h; rw [if_pos le_rfl, if_pos rfl]; ring
    · rw [if_pos h.le, if_neg (by omega), if_neg (by omega)]; ring
  rw [sum, ← key]
  ring

/-- **C102**, why the crystal case is partial: when the masks let through only the pairs of sites `a` and `b`, `a` the later one, the value is the number of vectors
from `a` to `b`; from `b` to `a` there are `mult a / mult b` times as many, so the number changes when the two sites are listed in the other order. -/
theorem counted_from_later (g : Geometry) (hok : g.Ok) (lo hi : ℝ) (a b : ℕ) (ha : a < g.cnt) (hb : b < a) (mask : ℕ → ℕ → Bool)
    (hm : ∀ i j, mask i j = true ↔ (i = a ∧ j = b) ∨ (i = b ∧ j = a)) :
    halfNeighbours g lo hi mask = (vecs g lo hi a b).length ∧ g.mult a * (vecs g lo hi a b).length = g.mult b * (vecs g lo hi b a).length := by
  constructor
  · unfold halfNeighbours
    rw [Finset.sum_eq_single a, Finset.sum_eq_single b]
    · rw [if_pos ⟨hb.le, (hm a b).2 (Or.inl ⟨rfl, rfl⟩)⟩, if_neg hb.ne', one_mul]
    · intro j _ hj
      rw [if_neg]
      rintro ⟨-, h⟩
      rcases (hm a j).1 h with h | h
      · exact hj h.2
      · exact hb.ne' h.1
    · exact fun h => absurd (Finset.mem_range.2 (hb.trans ha)) h
    · intro i _ hi
      refine Finset.sum_eq_zero fun j _ => if_neg ?_
      rintro ⟨h1, h⟩
      rcases (hm i j).1 h with h | h
      · exact hi h.1
      · omega
    · exact fun h => absurd (Finset.mem_range.2 ha) h
  · obtain ⟨gen, hgen⟩ := gen_exists g lo hi
    obtain ⟨bonds, hd⟩ := delivers g hok lo hi gen hgen
    have e : ∀ a < g.cnt, ∀ b < g.cnt, ((vecs g lo hi a b).length : ℝ) = g.sum a b (Geo.cut lo hi fun _ => 1) := by
      intro a ha b hb
      rw [← hd.sum a ha b hb, ← (delivers_vecs hok hd a b ha hb).length_eq, List.length_map, List.map_const', List.sum_replicate, nsmul_eq_mul, mul_one]
    have h := balance g hok lo hi (fun _ => 1) a b ha (hb.trans ha)
    rw [← e a ha b (hb.trans ha), ← e b (hb.trans ha) a ha] at h
    exact_mod_cast h

/-! ### Evaluations -/

theorem use_eq (m : Mask.State) : (fun i j : ℕ => !(Mask.hasMask m && !Mask.getPairMask m i j)) = fun i j : ℕ => Mask.getPairMask m i j := BVHist.use_eq m

/-- The contributions of an evaluation by CPU `c` of `n`. -/
noncomputable def jobTrace (m : Mask.State) (x : RStru) (gen : Gen Bond) (c n : Int) : List (Contrib Unit) :=
  basicTrace (chopOuterRule x.atoms.length n) (mapGen (fun _ => ()) gen) false (maskIn m x) x.atoms.length c n

theorem evaluate_value (cs : List Call) (hp : Proper cs) (x : RStru) (hall : Mask.allStr ∉ x.atoms.map fun a => a.atomtype)
    (so : List (Int × Bool)) (td : List (Mask.TKey × Bool)) (hv : (Mask.Op.stru [] so td).Valid (run new cs).mask) (gen : ℝ → ℝ → Gen Bond) :
    (run new (cs ++ [.eval x so td gen])).value = [countLoop (jobTrace (maskNow cs) x (gen (lastRmin cs) (lastRmax cs)) (lastCpu cs).1 (lastCpu cs).2) 0] := by
  obtain ⟨h1, h2, h5, h6⟩ := settings cs
  rw [run_snoc]
  have h51 : (run new cs).cpuindex = (lastCpu cs).1 := by rw [← h5]
  have h52 : (run new cs).ncpu = (lastCpu cs).2 := by rw [← h5]
  show addPairs ((run new cs).merge.value.map fun _ => 0) (basicTrace (chopOuterRule x.atoms.length (run new cs).ncpu)
    (mapGen (fun _ => ()) (gen (run new cs).rmin (run new cs).rmax)) false
    (fun i j => !(Mask.hasMask (Mask.setStructure so td (run new cs).mask (x.atoms.map fun a => a.atomtype)) &&
      !Mask.getPairMask (Mask.setStructure so td (run new cs).mask (x.atoms.map fun a => a.atomtype)) i j)) x.atoms.length
    (run new cs).cpuindex (run new cs).ncpu) = _
  have hm : (fun i j : ℕ => Mask.getPairMask (Mask.setStructure so td (run new cs).mask (x.atoms.map fun a => a.atomtype)) i j) = maskIn (maskNow cs) x := by
    funext i j
    rw [Mask.mask_in_evaluation (masks_run cs hp) _ hall so td hv i j, List.getElem?_map, List.getElem?_map]
    rfl
  obtain ⟨v, hv1⟩ := List.length_eq_one_iff.1 (show (run new cs).merge.value.length = 1 from h6)
  rw [use_eq, hm, h51, h52, h1, h2, hv1]
  rfl

theorem maskIn_symm (cs : List Call) (hp : Proper cs) (x : RStru) (hall : Mask.allStr ∉ x.atoms.map fun a => a.atomtype)
    (i j : ℕ) : maskIn (maskNow cs) x i j = maskIn (maskNow cs) x j i := by
  have h := fun i j => Mask.mask_in_evaluation (masks_run cs hp) _ hall _ _ ⟨List.Perm.refl _, List.Perm.refl _⟩ i j
  have h' : ∀ i j, maskIn (maskNow cs) x i j = Mask.getPairMask (Mask.setStructure (run new cs).mask.site (run new cs).mask.typ
      (run new cs).mask (x.atoms.map fun a => a.atomtype)) i j := by
    intro i j
    rw [h i j, List.getElem?_map, List.getElem?_map]
    rfl
  rw [h', h', Mask.mask_symmetric]

/-- **C102** (all structures; exact). After any history of calls (masks as in C92), an evaluation in one process leaves in `value()` the number of pairs under the present
limits and masks, those of different sites counted from the later site. -/
theorem counts_history (cs : List Call) (hp : Proper cs) (x : RStru) (hok : (geom x).Ok) (hall : Mask.allStr ∉ x.atoms.map fun a => a.atomtype)
    (so : List (Int × Bool)) (td : List (Mask.TKey × Bool)) (hv : (Mask.Op.stru [] so td).Valid (run new cs).mask) (gen : ℝ → ℝ → Gen Bond)
    (hgen : (geom x).IsGen (lastRmin cs) (lastRmax cs) (gen (lastRmin cs) (lastRmax cs))) (h1 : (lastCpu cs).2 = 1) :
    (run new (cs ++ [.eval x so td gen])).value = [halfNeighbours (geom x) (lastRmin cs) (lastRmax cs) (maskIn (maskNow cs) x)] := by
  rw [evaluate_value cs hp x hall so td hv gen, h1]
  unfold jobTrace
  rw [← geom_cnt x, loop_counts (geom x) hok _ _ _ hgen]

/-- **C102** (partial: all sites have the same multiplicity, as in every finite and periodic structure). The value is half of the number of neighbours; as an
integer it is rounded down. -/
theorem counts_partial (cs : List Call) (hp : Proper cs) (x : RStru) (hok : (geom x).Ok) (hmult : ∀ i < x.atoms.length, ∀ j < x.atoms.length, (geom x).mult i = (geom x).mult j)
    (hall : Mask.allStr ∉ x.atoms.map fun a => a.atomtype)
    (so : List (Int × Bool)) (td : List (Mask.TKey × Bool)) (hv : (Mask.Op.stru [] so td).Valid (run new cs).mask) (gen : ℝ → ℝ → Gen Bond)
    (hgen : (geom x).IsGen (lastRmin cs) (lastRmax cs) (gen (lastRmin cs) (lastRmax cs))) (h1 : (lastCpu cs).2 = 1) :
    let s := run new (cs ++ [.eval x so td gen])
    s.value = [(neighbours (geom x) (lastRmin cs) (lastRmax cs) (maskIn (maskNow cs) x) : ℝ) / 2] ∧
    s.count = ((neighbours (geom x) (lastRmin cs) (lastRmax cs) (maskIn (maskNow cs) x) / 2 : ℕ) : Int) := by
  intro s
  have h : s.value = [(neighbours (geom x) (lastRmin cs) (lastRmax cs) (maskIn (maskNow cs) x) : ℝ) / 2] := by
    rw [counts_history cs hp x hok hall so td hv gen hgen h1, half_of_all (geom x) hok _ _ (by rw [geom_cnt]; exact hmult) _ (maskIn_symm cs hp x hall)]
  refine ⟨h, ?_⟩
  unfold Obj.count
  rw [h]
  rw [List.headD_cons]
  unfold toInt
  rw [if_pos (by positivity)]
  generalize neighbours (geom x) (lastRmin cs) (lastRmax cs) (maskIn (maskNow cs) x) = n
  rw [Int.floor_eq_iff]
  have hn : n = 2 * (n / 2) + n % 2 := (Nat.div_add_mod n 2).symm
  have h2 : n % 2 < 2 := Nat.mod_lt _ (by norm_num)
  have hr : (n : ℝ) = 2 * ((n / 2 : ℕ) : ℝ) + ((n % 2 : ℕ) : ℝ) := by exact_mod_cast hn
  have h3 : ((n % 2 : ℕ) : ℝ) ≤ 1 := by exact_mod_cast (by omega : n % 2 ≤ 1)
  have h4 : (0 : ℝ) ≤ ((n % 2 : ℕ) : ℝ) := Nat.cast_nonneg _
  rw [Int.cast_natCast]
  constructor <;> rw [hr] <;> linarith

/-- **C102**, finite structures: the integer is the number of unordered pairs of sites that the masks let through at a distance in range. -/
theorem counts_cluster (cs : List Call) (hp : Proper cs) (atoms : List Atom) (hall : Mask.allStr ∉ atoms.map fun a => a.atomtype)
    (so : List (Int × Bool)) (td : List (Mask.TKey × Bool)) (hv : (Mask.Op.stru [] so td).Valid (run new cs).mask) (gen : ℝ → ℝ → Gen Bond)
    (hgen : (geom ⟨.atomic, atoms⟩).IsGen (lastRmin cs) (lastRmax cs) (gen (lastRmin cs) (lastRmax cs))) (h1 : (lastCpu cs).2 = 1) :
    (run new (cs ++ [.eval ⟨.atomic, atoms⟩ so td gen])).count =
      ((Wrappers.countedPairs (posOf atoms) (lastRmin cs) (lastRmax cs) (maskIn (maskNow cs) ⟨.atomic, atoms⟩) atoms.length).card : Int) := by
  have hok : (geom ⟨.atomic, atoms⟩).Ok := trivial
  have hg0 : (geom ⟨.atomic, atoms⟩).IsGen (lastRmin cs) (lastRmax cs) (Wrappers.counterGen (posOf atoms) (lastRmin cs) (lastRmax cs)) :=
    ⟨fun _ _ => ⟨⟨0, 0, 0⟩, ⟨0, 0, 0⟩, 0⟩, rfl⟩
  have hg : countLoop (jobTrace (maskNow cs) ⟨.atomic, atoms⟩ (gen (lastRmin cs) (lastRmax cs)) (lastCpu cs).1 (lastCpu cs).2) 0 =
      countLoop (basicTrace true (Wrappers.counterGen (posOf atoms) (lastRmin cs) (lastRmax cs)) false (maskIn (maskNow cs) ⟨.atomic, atoms⟩) atoms.length 0 1) 0 := by
    unfold jobTrace
    rw [h1, show atoms.length = (geom ⟨.atomic, atoms⟩).cnt from rfl, loop_counts _ hok _ _ _ hgen, ← loop_counts _ hok _ _ _ hg0 true _ 0]
    have hsp := base_loop_genSpec (posOf atoms) (lastRmin cs) (lastRmax cs) (fun _ _ => ⟨⟨0, 0, 0⟩, ⟨0, 0, 0⟩, 0⟩)
    have hu := maskIn_symm cs hp ⟨.atomic, atoms⟩ hall
    have hl : ∀ i j, (specBond ⟨posOf atoms i, lastRmin cs, lastRmax cs⟩ j (posOf atoms j)).length =
        (specBond ⟨posOf atoms j, lastRmin cs, lastRmax cs⟩ i (posOf atoms i)).length := by
      intro i j
      have hc : V3.distance (posOf atoms j) (posOf atoms i) = V3.distance (posOf atoms i) (posOf atoms j) := by
        unfold V3.distance V3.norm V3.sub V3.dot
        congr 1
        ring
      unfold specBond GoodDist
      simp only [hc]
      split <;> rfl
    unfold Wrappers.counterGen
    rw [Wrappers.countLoop_value true _ _ (mapGen_spec (fun _ => ()) _ _ hsp) _ hu (fun i j => by rw [List.length_map, List.length_map, hl]),
      Wrappers.countLoop_value true _ _ hsp _ hu hl]
    simp only [List.length_map]
  unfold Obj.count
  rw [evaluate_value cs hp _ hall so td hv gen, List.headD_cons, hg]
  exact Wrappers.pairCount_spec (posOf atoms) _ _ _ (maskIn_symm cs hp ⟨.atomic, atoms⟩ hall) true atoms.length

/-! ### Parallel jobs -/

theorem jobs_sum (m : Mask.State) (x : RStru) (hok : (geom x).Ok) (lo hi : ℝ) (gen : Gen Bond) (hgen : (geom x).IsGen lo hi gen) (n : ℕ) (hn : 1 ≤ n) :
    ((List.range n).map fun i : ℕ => countLoop (jobTrace m x gen (i : ℤ) (n : ℤ)) 0).sum = halfNeighbours (geom x) lo hi (maskIn m x) := by
  rw [← loop_counts (geom x) hok lo hi gen hgen (chopOuterRule x.atoms.length n) (maskIn m x) 0, geom_cnt,
    ← countLoop_perm (parallel_basic_partition (chopOuterRule x.atoms.length n) (mapGen (fun _ => ()) gen) false (maskIn m x) x.atoms.length n hn 0), countLoop_flatMap]
  refine congrArg List.sum (List.map_congr_left fun i _ => ?_)
  unfold jobTrace
  rw [zero_add]

theorem merges_run (s : Obj) (n : ℤ) (parts : List (List ℝ)) (h : (Protocol.mergeAll s.merge n parts).err = none) :
    run s (parts.map fun p => .merge p n) = { s with merge := (Protocol.mergeAll s.merge n parts).st } := by
  induction parts generalizing s with
  | nil => rfl
  | cons p ps ih =>
    rw [List.map_cons]
    show run { s with merge := (Protocol.mergeParallelData s.merge p n).st } _ = _
    unfold Protocol.mergeAll at h ⊢
    rcases hm : Protocol.mergeParallelData s.merge p n with ⟨m', _ | err⟩
    · rw [hm] at h
      dsimp only at h ⊢
      exact ih { s with merge := m' } h
    · rw [hm] at h
      cases h

/-- **C102**, parallel. `n` jobs with any histories and the same settings evaluate `x` as CPU 0, ..., n-1 of `n`; a further counter with any history is given `x` and
merges the results in any order.  Its value is the one of a single process. -/
theorem counts_parallel (n : ℕ) (hn : 1 ≤ n) (js : ℕ → List Call) (hp : ∀ i < n, Proper (js i)) (m : Mask.State) (lo hi : ℝ) (hm : ∀ i < n, maskNow (js i) = m)
    (hlo : ∀ i < n, lastRmin (js i) = lo) (hhi : ∀ i < n, lastRmax (js i) = hi) (hcpu : ∀ i < n, lastCpu (js i) = ((i : ℤ), (n : ℤ)))
    (x : RStru) (hok : (geom x).Ok) (hall : Mask.allStr ∉ x.atoms.map fun a => a.atomtype) (gen : ℝ → ℝ → Gen Bond) (hgen : (geom x).IsGen lo hi (gen lo hi))
    (so : ℕ → List (Int × Bool)) (td : ℕ → List (Mask.TKey × Bool)) (hv : ∀ i < n, (Mask.Op.stru [] (so i) (td i)).Valid (run new (js i)).mask)
    (parts : List (List ℝ)) (hparts : parts.Perm ((List.range n).map fun i => (run new (js i ++ [.eval x (so i) (td i) gen])).value))
    (cs : List Call) (so' : List (Int × Bool)) (td' : List (Mask.TKey × Bool)) :
    let s := run new (cs ++ .setStructure x so' td' :: parts.map fun p => .merge p n)
    s.value = [halfNeighbours (geom x) lo hi (maskIn m x)] ∧ s.merge.count = n := by
  intro s
  have hval : ∀ i < n, (run new (js i ++ [.eval x (so i) (td i) gen])).value = [countLoop (jobTrace m x (gen lo hi) (i : ℤ) (n : ℤ)) 0] := by
    intro i hi
    rw [evaluate_value (js i) (hp i hi) x hall (so i) (td i) (hv i hi) gen, hm i hi, hlo i hi, hhi i hi, hcpu i hi]
  have hlen : parts.length = n := by rw [hparts.length_eq]; simp
  have hpl : ∀ p ∈ parts, p.length = 1 := by
    intro p h
    obtain ⟨i, hi, rfl⟩ := List.mem_map.1 (hparts.mem_iff.1 h)
    rw [hval i (List.mem_range.1 hi)]
    rfl
  set s0 := run new cs with hs0
  have h0 : s0.merge.value.length = 1 := (settings cs).2.2.2
  have hs : s = run (setStructure s0 x so' td') (parts.map fun p => .merge p n) := by
    show run new (cs ++ .setStructure x so' td' :: parts.map fun p => .merge p n) = _
    rw [run_append]
    rfl
  obtain ⟨a1, a2, a3, a4, -⟩ := Protocol.merge_all_ok s0.merge parts (fun p h => by rw [hpl p h, h0])
  rw [hlen] at a1 a2 a3 a4
  have hmerge : (setStructure s0 x so' td').merge = Protocol.resetValue s0.merge := rfl
  have hs' : s = { setStructure s0 x so' td' with merge := (Protocol.mergeAll (Protocol.resetValue s0.merge) n parts).st } := by
    rw [hs, merges_run _ _ _ (by rw [hmerge]; exact a1), hmerge]
  refine ⟨?_, by rw [hs']; exact a4⟩
  have hv2 : s.value = (Protocol.mergeAll (Protocol.resetValue s0.merge) n parts).st.value := by rw [hs']; rfl
  rw [hv2]
  obtain ⟨v, hv3⟩ := List.length_eq_one_iff.1 (a2.trans h0)
  have h3 := a3 0 (by rw [h0]; exact one_pos)
  rw [hv3] at h3 ⊢
  rw [← jobs_sum m x hok lo hi (gen lo hi) hgen n hn]
  congr 1
  refine h3.trans ?_
  rw [(hparts.map _).sum_eq, List.map_map]
  refine congrArg List.sum (List.map_congr_left fun i hi => ?_)
  show (run new (js i ++ [.eval x (so i) (td i) gen])).value.getD 0 0 = _
  rw [hval i (List.mem_range.1 hi)]
  rfl

/-! ### Parts, and what does not change the result -/

/-- **C102**: the values of counters whose masks divide the pairs add up. -/
theorem counts_parts {ι : Type} [Fintype ι] (g : Geometry) (lo hi : ℝ) (whole : ℕ → ℕ → Bool) (part : ι → ℕ → ℕ → Bool) (h : Divides g.cnt whole part) :
    halfNeighbours g lo hi whole = ∑ q, halfNeighbours g lo hi (part q) ∧ neighbours g lo hi whole = ∑ q, neighbours g lo hi (part q) := by
  constructor
  · unfold halfNeighbours
    have e : ∀ (mask : ℕ → ℕ → Bool) (i j : ℕ), (if j ≤ i ∧ mask i j = true then (if i = j then 1 / 2 else 1) * ((vecs g lo hi i j).length : ℝ) else 0) =
        if mask i j = true then (if j ≤ i then (if i = j then 1 / 2 else 1) * ((vecs g lo hi i j).length : ℝ) else 0) else 0 := by
      intro mask i j
      by_cases h1 : j ≤ i <;> by_cases h2 : mask i j = true <;> simp [h1, h2]
    simp only [e]
    exact h.pairs _
  · unfold neighbours
    refine (Finset.sum_congr rfl fun i h1 => ?_).trans Finset.sum_comm
    refine (Finset.sum_congr rfl fun j h2 => ?_).trans Finset.sum_comm
    exact h.term (A := ℕ) (Finset.mem_range.1 h1) (Finset.mem_range.1 h2) (vecs g lo hi i j).length

/-- **C102**: a call that throws changes nothing. -/
theorem throw_unchanged (s : Obj) (c : Call) (h : (step s c).err ≠ none) : (step s c).st = s := by
  cases c with
  | setType t =>
    simp only [step]
    split <;> rfl
  | parallel i n =>
    simp only [step] at h ⊢
    split at h
    · rename_i h'; rw [if_pos h']
    · exact absurd rfl h
  | merge p n =>
    show ({ s with merge := (Protocol.mergeParallelData s.merge p n).st } : Obj) = s
    have h' : (Protocol.mergeParallelData s.merge p n).err ≠ none := h
    have : (Protocol.mergeParallelData s.merge p n).st = s.merge := by
      unfold Protocol.mergeParallelData Protocol.executeMerge at h' ⊢
      split at h'
      · rename_i hc; rw [if_pos hc]
      · rename_i hc
        rw [if_neg hc]
        split at h'
        · rename_i m' er heq
          split at heq
          · cases heq
            rfl
          · cases heq
        · exact absurd rfl h'
    rw [this]
  | setRmin r => exact absurd rfl h
  | setRmax r => exact absurd rfl h
  | mask op => exact absurd rfl h
  | setStructure x so td => exact absurd rfl h
  | eval x so td gen => exact absurd rfl h

/-- Calls that only set something. -/
def Call.Setting : Call → Prop
  | .setStructure _ _ _ => False
  | .eval _ _ _ _ => False
  | .merge _ _ => False
  | _ => True

/-- **C102**: settings do not change a result that is there. -/
theorem setting_keeps (s : Obj) (cs : List Call) (h : ∀ c ∈ cs, c.Setting) : (run s cs).value = s.value := by
  induction cs generalizing s with
  | nil => rfl
  | cons c cs ih =>
    refine (ih (step s c).st fun c hc => h c (List.mem_cons_of_mem _ hc)).trans ?_
    have hc := h c (List.mem_cons_self ..)
    cases c with
    | setType t => simp only [step]; split <;> rfl
    | parallel i n => simp only [step]; split <;> rfl
    | setRmin r => rfl
    | setRmax r => rfl
    | mask op => rfl
    | setStructure x so td => exact absurd hc id
    | eval x so td gen => exact absurd hc id
    | merge p n => exact absurd hc id

/-! ### An example -/

open Verif.BVHist (exIons exGen)

/-- Pairs of like ions are masked, then a first evaluation within 1 fails to reach any pair, and the limit is raised again. -/
noncomputable def exCalls : List Call :=
  [.mask (.typ "Cl1-" "Cl1-" false), .setRmax 1, .eval exIons [] [(("Cl1-", "Cl1-"), false)] (exGen exIons), .setRmin 2, .setRmax 2, .setType 3, .parallel 0 0]

theorem split_cases {cs : List Call} {c : Call} {pre post : List Call} (h : cs = pre ++ c :: post) :
    pre.length < cs.length ∧ pre = cs.take pre.length ∧ cs[pre.length]? = some c := by
  subst h
  simp

theorem ex_mask : (run new exCalls).mask =
    Mask.setStructure [] [(("Cl1-", "Cl1-"), false)] (Mask.step Mask.init (.typ "Cl1-" "Cl1-" false)) (exIons.atoms.map fun a => a.atomtype) := rfl

theorem ex_valid : (Mask.Op.stru [] [] [(("Cl1-", "Cl1-"), false)]).Valid (run new exCalls).mask := by
  rw [ex_mask]
  exact ⟨List.Perm.refl _, List.Perm.refl _⟩

theorem ex_proper : Proper exCalls := by
  refine ⟨?_, ?_, ?_⟩
  · intro pre op post h
    obtain ⟨h1, h2, h3⟩ := split_cases h
    have hl : exCalls.length = 7 := rfl
    rw [hl] at h1
    generalize pre.length = n at h1 h2 h3
    subst h2
    have : n = 0 := by
      rcases n with _ | _ | _ | _ | _ | _ | _ | n
      · rfl
      all_goals cases h3
    subst this
    cases h3
    refine ⟨trivial, ?_⟩
    intro t _ y _
    exact fun hh => by cases hh
  · intro pre x so td post h
    obtain ⟨h1, h2, h3⟩ := split_cases h
    have hl : exCalls.length = 7 := rfl
    rw [hl] at h1
    generalize pre.length = n at h1 h2 h3
    rcases n with _ | _ | _ | _ | _ | _ | _ | n
    all_goals cases h3
  · intro pre x so td gen post h
    obtain ⟨h1, h2, h3⟩ := split_cases h
    have hl : exCalls.length = 7 := rfl
    rw [hl] at h1
    generalize pre.length = n at h1 h2 h3
    have : n = 2 := by
      rcases n with _ | _ | _ | _ | _ | _ | _ | n
      all_goals first | (cases h3; done) | rfl
    subst this
    cases h3
    subst h2
    have : (run new (exCalls.take 2)).mask = Mask.step Mask.init (.typ "Cl1-" "Cl1-" false) := rfl
    rw [this]
    exact ⟨List.Perm.refl _, List.Perm.refl _⟩

example : Proper exCalls ∧ (geom exIons).Ok ∧ (∀ lo hi, (geom exIons).IsGen lo hi (exGen exIons lo hi)) ∧
    (Mask.Op.stru [] [] [(("Cl1-", "Cl1-"), false)]).Valid (run new exCalls).mask ∧ (lastCpu exCalls).2 = 1 ∧ lastRmin exCalls = 2 ∧
    lastRmax exCalls = 2 ∧ Mask.allStr ∉ exIons.atoms.map fun a => a.atomtype := by
  exact ⟨ex_proper, trivial, fun lo hi => (gen_exists _ _ _).choose_spec, ex_valid, rfl, rfl, rfl, by decide⟩

/-- The two ions at distance 2 are one pair, limits being included. -/
example : (run new (exCalls ++ [.eval exIons [] [(("Cl1-", "Cl1-"), false)] (exGen exIons)])).count = 1 := by
  rw [show exIons = ⟨.atomic, exIons.atoms⟩ from rfl, counts_cluster exCalls ex_proper exIons.atoms (by decide) [] _ ex_valid _ (gen_exists _ _ _).choose_spec rfl]
  have hm : maskIn (maskNow exCalls) exIons 0 1 = true ∧ maskIn (maskNow exCalls) exIons 1 0 = true := by decide +kernel
  have p0 : posOf exIons.atoms 0 = ⟨0, 0, 0⟩ := by
    show (⟨((0 : ℚ) : ℝ), ((0 : ℚ) : ℝ), ((0 : ℚ) : ℝ)⟩ : V3) = _
    norm_num
  have p1 : posOf exIons.atoms 1 = ⟨2, 0, 0⟩ := by
    show (⟨((2 : ℚ) : ℝ), ((0 : ℚ) : ℝ), ((0 : ℚ) : ℝ)⟩ : V3) = _
    norm_num
  have hd : V3.distance (posOf exIons.atoms 0) (posOf exIons.atoms 1) = 2 := by
    rw [p0, p1]
    simp [V3.distance, V3.norm, V3.sub, V3.dot]
  have e : Wrappers.countedPairs (posOf exIons.atoms) (lastRmin exCalls) (lastRmax exCalls) (maskIn (maskNow exCalls) exIons) exIons.atoms.length = {(0, 1)} := by
    ext ⟨a, b⟩
    unfold Wrappers.countedPairs
    rw [Finset.mem_filter, Finset.mem_product, Finset.mem_range, Finset.mem_range, Finset.mem_singleton, Prod.mk.injEq]
    constructor
    · rintro ⟨⟨ha, hb⟩, hlt, -⟩
      have hb' : b < 2 := hb
      exact ⟨by omega, by omega⟩
    · rintro ⟨rfl, rfl⟩
      refine ⟨⟨by decide, by decide⟩, by decide, hm.1, ?_, ?_, ?_⟩
      · exact (le_of_eq (show lastRmin exCalls = 2 from rfl)).trans hd.ge
      · exact hd.le.trans (le_of_eq (show (2 : ℝ) = lastRmax exCalls from rfl))
      · rw [hd]
        unfold sqrtEps
        norm_num
  exact congrArg (fun s : Finset (ℕ × ℕ) => (s.card : Int)) e

end Verif.CountHist
