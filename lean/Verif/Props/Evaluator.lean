import Verif.Lemmas.EvalSum
import Mathlib.Algebra.BigOperators.Group.Finset.Basic
/-!
Properties of the evaluators (PQEvaluator.cpp): C07 parallel partition, C08 half and full sum,
C11 fast update equals full evaluation.
-/
namespace Verif.Eval

variable {B : Type}

/-! ## Specification -/

/-- What a full evaluation over `cnt` sites has to contribute: every bond of every ordered pair of
sites in the loop triangle (all pairs for the full sum) that the mask lets through, with scale 1
on the diagonal and in the full sum, 2 otherwise. -/
def specContribs (c : Nat → Nat → List B) (full : Bool) (use : Nat → Nat → Bool) (cnt : Nat) :
    List (Contrib B) :=
  (List.range cnt).flatMap fun i => (List.range cnt).flatMap fun j =>
    if (full = true ∨ j ≤ i) ∧ use i j = true then
      (c i j).map fun b => ⟨i, j, if full = true ∨ i = j then 1 else 2, b⟩
    else []

/-- The double sum over all ordered pairs of `cnt` sites that the mask lets through. -/
def pairSum {G : Type} [AddCommGroup G] (f : Nat → Nat → B → G) (c : Nat → Nat → List B)
    (use : Nat → Nat → Bool) (cnt : Nat) : G :=
  ∑ i ∈ Finset.range cnt, ∑ j ∈ Finset.range cnt,
    if use i j = true then ((c i j).map (f i j)).sum else 0

/-! ## helpers -/

theorem finset_sum_range {G : Type} [AddCommGroup G] (g : Nat → G) (n : Nat) :
    ∑ i ∈ Finset.range n, g i = ((List.range n).map g).sum := by
  induction n with
  | zero => rfl
  | succ n ih => rw [Finset.sum_range_succ, List.range_succ, List.map_append, List.sum_append, ih]; simp

theorem pairSum_eq {G : Type} [AddCommGroup G] (f : Nat → Nat → B → G) (c : Nat → Nat → List B)
    (use : Nat → Nat → Bool) (cnt : Nat) :
    pairSum f c use cnt = dsum (pairW f c use) (List.range cnt) (List.range cnt) := by
  unfold pairSum dsum pairW
  simp only [finset_sum_range]

theorem basicTrace_serial (rule : Bool) (gen : Gen B) (full : Bool) (use : Nat → Nat → Bool)
    (cnt : Nat) (n : Int) :
    basicTrace rule gen full use cnt n 1
      = (List.range cnt).flatMap fun i0 => block 1 full use i0 (gen i0 (basicSel full cnt i0)) := by
  unfold basicTrace
  have : decide ((1 : Int) > 1) = false := by decide
  simp only [this, Bool.false_and]
  exact basicLoop_serial _ _ _ _ _ _ _

theorem flatMap_perm {α β : Type} (l : List α) (f g : α → List β) (h : ∀ a ∈ l, (f a).Perm (g a)) :
    (l.flatMap f).Perm (l.flatMap g) := by
  induction l with
  | nil => simp
  | cons a l ih =>
    simp only [List.flatMap_cons]
    exact (h a (by simp)).append (ih fun b hb => h b (by simp [hb]))

theorem block_flatMap (s : Int) (full : Bool) (use : Nat → Nat → Bool) (i : Nat) (sel : List Nat)
    (c : Nat → Nat → List B) :
    block s full use i (sel.flatMap fun j => (c i j).map fun b => (j, b))
      = sel.flatMap fun j => if use i j then (c i j).map fun b => ⟨i, j, sumScale s full i j, b⟩ else [] := by
  induction sel with
  | nil => rfl
  | cons j sel ih =>
    simp only [List.flatMap_cons, ← ih]
    simp only [block, List.filter_append, List.map_append]
    congr 1
    by_cases hu : use i j
    · simp [hu, List.filter_map, Function.comp_def]
    · simp [hu, List.filter_map, Function.comp_def]

/-! ## C07 / C08 -/

/-- The serial BASIC evaluation makes exactly the specified contributions (in some order). -/
theorem basic_serial_spec (rule : Bool) (gen : Gen B) (c : Nat → Nat → List B) (hg : GenSpec gen c)
    (full : Bool) (use : Nat → Nat → Bool) (cnt : Nat) (n : Int) :
    (basicTrace rule gen full use cnt n 1).Perm (specContribs c full use cnt) := by
  rw [basicTrace_serial]
  apply flatMap_perm
  intro i hi
  have hi' := List.mem_range.1 hi
  have hp : (block 1 full use i (gen i (basicSel full cnt i))).Perm
      (block 1 full use i ((basicSel full cnt i).flatMap fun j => (c i j).map fun b => (j, b))) :=
    ((hg i _).filter _).map _
  refine hp.trans (List.Perm.of_eq ?_)
  rw [block_flatMap]
  have hsc : ∀ j, sumScale 1 full i j = if full = true ∨ i = j then 1 else 2 := by
    intro j; unfold sumScale; cases full <;> simp
  cases full with
  | true => simp [basicSel, hsc]
  | false =>
    have e : basicSel false cnt i = List.range (i + 1) := by simp [basicSel]
    obtain ⟨d, rfl⟩ : ∃ d, cnt = (i + 1) + d := ⟨cnt - (i + 1), by omega⟩
    rw [e, List.range_add (n := i + 1) (m := d), List.flatMap_append]
    have h2 : ((List.range d).map (fun x => i + 1 + x)).flatMap (fun j =>
        if (false = true ∨ j ≤ i) ∧ use i j = true then
          (c i j).map fun b => (⟨i, j, if false = true ∨ i = j then 1 else 2, b⟩ : Contrib B)
        else []) = [] := by
      rw [List.flatMap_eq_nil_iff]
      intro j hj
      obtain ⟨x, _, rfl⟩ := List.mem_map.1 hj
      have : ¬ (i + 1 + x ≤ i) := by omega
      simp [this]
    rw [h2, List.append_nil]
    apply List.flatMap_congr
    intro j hj
    have : j ≤ i := by have := List.mem_range.1 hj; omega
    simp [this, hsc]

/-- A 3-site generator with one bond for each ordered pair of distinct sites. -/
def exGen : Gen Nat := fun i sel => sel.flatMap fun j => (if i = j then [] else [10 * i + j]).map fun b => (j, b)

theorem exGen_spec : GenSpec exGen (fun i j => if i = j then [] else [10 * i + j]) :=
  fun _ _ => List.Perm.refl _

example : basicTrace true exGen false (fun _ _ => true) 3 0 1
    = [⟨1, 0, 2, 10⟩, ⟨2, 0, 2, 20⟩, ⟨2, 1, 2, 21⟩] := by decide

/-- **C07**, BASIC evaluator: for any number `ncpu ≥ 1` of CPUs, any outcome of the load-balance
rule and any counter offset `n0`, the jobs `n0, …, n0 + ncpu - 1` together make exactly the
contributions of the serial evaluation, each once.  No assumption on the generator. -/
theorem parallel_basic_partition (rule : Bool) (gen : Gen B) (full : Bool) (use : Nat → Nat → Bool)
    (cnt ncpu : Nat) (hn : 1 ≤ ncpu) (n0 : Int) :
    ((List.range ncpu).flatMap fun k : Nat =>
        basicTrace rule gen full use cnt (n0 + (k : Int)) (ncpu : Int)).Perm
      (basicTrace rule gen full use cnt 0 1) := by
  rw [basicTrace_serial]
  by_cases h1 : ncpu = 1
  · subst h1
    simp only [List.range_one, List.flatMap_cons, List.flatMap_nil, List.append_nil, Nat.cast_one]
    rw [basicTrace_serial]
  · have hd : decide ((ncpu : Int) > 1) = true := by
      have : (ncpu : Int) > 1 := by omega
      simpa using this
    cases rule with
    | true =>
      have e : ∀ k : Nat, basicTrace true gen full use cnt (n0 + (k : Int)) (ncpu : Int)
          = (chop (ncpu : Int) (n0 + (k : Int)) ((List.range cnt).map fun i0 =>
              block 1 full use i0 (gen i0 (basicSel full cnt i0)))).flatten := by
        intro k
        unfold basicTrace
        simp only [hd, Bool.true_and, Bool.not_true]
        exact basicLoop_outer _ _ _ _ _ _ _
      simp only [e]
      refine (chop_perm_flatten ncpu (by omega) n0 _).trans (List.Perm.of_eq ?_)
      rw [List.flatMap_def]
    | false =>
      have e : ∀ k : Nat, basicTrace false gen full use cnt (n0 + (k : Int)) (ncpu : Int)
          = rawContribs full use (chop (ncpu : Int) (n0 + (k : Int))
              (rawBonds gen full cnt (List.range cnt))) := by
        intro k
        unfold basicTrace
        simp only [hd, Bool.true_and, Bool.not_false]
        exact basicLoop_inner _ _ _ _ _ _ _
      simp only [e]
      rw [serial_eq_raw]
      have hp := chop_partition ncpu (by omega) n0 (rawBonds gen full cnt (List.range cnt))
      have hp2 : (rawContribs full use ((List.range ncpu).flatMap fun k : Nat =>
          chop (ncpu : Int) (n0 + (k : Int)) (rawBonds gen full cnt (List.range cnt)))).Perm
          (rawContribs full use (rawBonds gen full cnt (List.range cnt))) :=
        (hp.filter _).map _
      refine (List.Perm.of_eq ?_).trans hp2
      have aux : ∀ (l : List Nat) (g : Nat → List (Nat × Nat × B)),
          (l.flatMap fun k => rawContribs full use (g k)) = rawContribs full use (l.flatMap g) := by
        intro l g
        induction l with
        | nil => rfl
        | cons a l ih => simp only [List.flatMap_cons, ih, rawContribs_append]
      exact aux _ _

example : (basicTrace true exGen false (fun _ _ => true) 3 0 2,
    basicTrace true exGen false (fun _ _ => true) 3 1 2)
    = ([⟨2, 0, 2, 20⟩, ⟨2, 1, 2, 21⟩], [⟨1, 0, 2, 10⟩]) := by decide
example : (basicTrace false exGen false (fun _ _ => true) 3 0 2,
    basicTrace false exGen false (fun _ _ => true) 3 1 2)
    = ([⟨1, 0, 2, 10⟩, ⟨2, 1, 2, 21⟩], [⟨2, 0, 2, 20⟩]) := by decide

/-- **C07**, OPTIMIZED fast update: the removals (resp. additions) of the jobs of all CPUs are
together exactly those of the serial fast update. -/
theorem parallel_fast_partition (gen0 gen1 : Gen B) (full : Bool) (use0 use1 : Nat → Nat → Bool)
    (cnt0 cnt1 : Nat) (pop add : List Nat) (ncpu : Nat) (hn : 1 ≤ ncpu) (n0 : Int) :
    ((List.range ncpu).flatMap fun k : Nat =>
        (fastTrace gen0 gen1 full use0 use1 cnt0 cnt1 pop add (n0 + (k : Int)) (ncpu : Int)).1).Perm
      (fastTrace gen0 gen1 full use0 use1 cnt0 cnt1 pop add 0 1).1 ∧
    ((List.range ncpu).flatMap fun k : Nat =>
        (fastTrace gen0 gen1 full use0 use1 cnt0 cnt1 pop add (n0 + (k : Int)) (ncpu : Int)).2).Perm
      (fastTrace gen0 gen1 full use0 use1 cnt0 cnt1 pop add 0 1).2 := by
  unfold fastTrace
  simp only [removeTrace_eq, addTrace_eq, chop_one]
  refine ⟨chop_perm_flatten ncpu (by omega) n0 _, ?_⟩
  have h := chop_perm_flatten ncpu (by omega) (n0 + (removeAll gen0 full use0 cnt0 pop).length)
    (addAll gen1 full use1 cnt1 add)
  refine (List.Perm.of_eq ?_).trans h
  congr 1
  funext k
  congr 2
  ring

variable {G : Type} [AddCommGroup G]

theorem traceSum_flatMap (f : Nat → Nat → B → G) (n : Nat) (g : Nat → List (Contrib B)) :
    traceSum f ((List.range n).flatMap g) = ∑ k ∈ Finset.range n, traceSum f (g k) := by
  rw [List.flatMap_def, traceSum_flatten, finset_sum_range, List.map_map]; rfl

/-- **C07**, merged value: the sum of the values computed by all the jobs (element-wise merge)
equals the serial value, whatever the contribution function. -/
theorem parallel_merge_value (f : Nat → Nat → B → G) (rule : Bool) (gen : Gen B) (full : Bool)
    (use : Nat → Nat → Bool) (cnt ncpu : Nat) (hn : 1 ≤ ncpu) :
    ∑ k ∈ Finset.range ncpu, traceSum f (basicTrace rule gen full use cnt (k : Int) (ncpu : Int))
      = traceSum f (basicTrace rule gen full use cnt 0 1) := by
  rw [← traceSum_perm f (parallel_basic_partition rule gen full use cnt ncpu hn 0), traceSum_flatMap]
  simp only [zero_add]

/-- **C08**: the serial evaluation gives the full double sum over ordered pairs, in half-sum mode
too when the masked pair contribution does not depend on the orientation. -/
theorem basic_value (f : Nat → Nat → B → G) (rule : Bool) (gen : Gen B) (c : Nat → Nat → List B)
    (hg : GenSpec gen c) (full : Bool) (use : Nat → Nat → Bool)
    (hsym : full = false → ∀ i j, use i j = use j i ∧
      ((c i j).map (f i j)).sum = ((c j i).map (f j i)).sum) (cnt : Nat) :
    traceSum f (basicTrace rule gen full use cnt 0 1) = pairSum f c use cnt := by
  rw [basicTrace_serial, pairSum_eq]
  apply basic_sum f gen c hg
  intro hf i j
  obtain ⟨h1, h2⟩ := hsym hf i j
  unfold pairW
  rw [h1, h2]

/-- **C08**: half sum equals full sum for orientation-independent contributions. -/
theorem half_sum_eq_full_sum (f : Nat → Nat → B → G) (gen : Gen B) (c : Nat → Nat → List B)
    (hg : GenSpec gen c) (use : Nat → Nat → Bool) (hu : ∀ i j, use i j = use j i)
    (hsym : ∀ i j, ((c i j).map (f i j)).sum = ((c j i).map (f j i)).sum) (rule : Bool) (cnt : Nat) :
    traceSum f (basicTrace rule gen false use cnt 0 1)
      = traceSum f (basicTrace rule gen true use cnt 0 1) := by
  rw [basic_value f rule gen c hg false use (fun _ i j => ⟨hu i j, hsym i j⟩),
    basic_value f rule gen c hg true use (by intro h; cases h)]

/-- Without orientation independence the two modes can differ. -/
theorem half_sum_needs_symmetry :
    traceSum (fun i _ (_ : Nat) => (i : Int)) (basicTrace true exGen false (fun _ _ => true) 3 0 1)
      ≠ traceSum (fun i _ (_ : Nat) => (i : Int)) (basicTrace true exGen true (fun _ _ => true) 3 0 1) := by
  decide

example : ∀ i j : Nat, ((if i = j then [] else [10 * i + j]).map
      (fun _ => ((i + j : Nat) : Int))).sum
    = ((if j = i then [] else [10 * j + i]).map (fun _ => ((j + i : Nat) : Int))).sum := by
  intro i j
  by_cases h : i = j
  · simp [h]
  · simp [h, Ne.symm h, Nat.add_comm]
example : traceSum (fun i j (_ : Nat) => ((i + j : Nat) : Int))
    (basicTrace true exGen false (fun _ _ => true) 3 0 1) = 12 := by decide

/-! ## C11 -/

/-- Valid list of changed sites: strictly increasing and below the number of sites. -/
def ValidSites (cnt : Nat) (l : List Nat) : Prop := l.Pairwise (· < ·) ∧ ∀ i ∈ l, i < cnt

theorem fast_removed (f : Nat → Nat → B → G) (gen : Gen B) (c : Nat → Nat → List B)
    (hg : GenSpec gen c) (full : Bool) (use : Nat → Nat → Bool)
    (hW : full = false → ∀ i j, pairW f c use i j = pairW f c use j i) (cnt : Nat) (pop : List Nat)
    (hpop : ValidSites cnt pop) (n : Int) :
    dsum (pairW f c use) (List.range cnt) (List.range cnt) + traceSum f (removeTrace gen full use cnt pop n 1).2
      = dsum (pairW f c use) (complementaryIndices cnt pop) (complementaryIndices cnt pop) := by
  rw [removeTrace_eq, chop_one]
  have hp := compl_perm cnt pop hpop.1 hpop.2
  unfold removeAll
  by_cases he : pop = []
  · subst he
    simp only [List.isEmpty_nil, if_true, List.length_nil, ite_self, removeBlocks,
      List.flatten_nil, traceSum_nil, add_zero]
    exact (dsum_perm _ hp hp).symm
  · have he' : pop.isEmpty = false := by simpa using he
    simp only [he', Bool.false_eq_true, if_false]
    rw [← dsum_perm _ hp hp]
    generalize complementaryIndices cnt pop = U at *
    cases full with
    | true =>
      simp only [if_true]
      rw [removeBlocks_full f gen c hg use pop U (pop ++ U) (pop ++ U) _ 0 rfl rfl]
      simp only [List.drop_zero, Nat.zero_sub, dsum_append_left, dsum_append_right]
      abel
    | false =>
      simp only [Bool.false_eq_true, if_false]
      rw [removeBlocks_half f gen c hg use (hW rfl) pop U (pop ++ U) pop (hp.nodup_iff.2 List.nodup_range)]
      abel

theorem fast_added (f : Nat → Nat → B → G) (gen : Gen B) (c : Nat → Nat → List B)
    (hg : GenSpec gen c) (full : Bool) (use : Nat → Nat → Bool)
    (hW : full = false → ∀ i j, pairW f c use i j = pairW f c use j i) (cnt : Nat) (add : List Nat)
    (hadd : ValidSites cnt add) (n : Int) :
    dsum (pairW f c use) (complementaryIndices cnt add) (complementaryIndices cnt add)
      + traceSum f (addTrace gen full use cnt add n 1)
      = dsum (pairW f c use) (List.range cnt) (List.range cnt) := by
  rw [addTrace_eq, chop_one]
  have hp := (List.perm_append_comm).trans (compl_perm cnt add hadd.1 hadd.2)
  unfold addAll
  by_cases he : add = []
  · subst he
    rw [List.append_nil] at hp
    rw [dsum_perm _ hp hp]
    cases full <;> simp [addBlocks, traceSum_nil]
  · have he' : add.isEmpty = false := by simpa using he
    simp only [he', Bool.false_eq_true, if_false]
    rw [← dsum_perm _ hp hp]
    generalize complementaryIndices cnt add = U at *
    cases full with
    | true =>
      simp only [if_true]
      rw [addBlocks_full f gen c hg use U add [] (U ++ add) rfl]
      simp only [List.length_nil, List.drop_zero, Nat.zero_sub, dsum_append_left, dsum_append_right]
      abel
    | false =>
      simp only [Bool.false_eq_true, if_false]
      rw [addBlocks_half f gen c hg use (hW rfl) (U ++ add) add U add (hp.nodup_iff.2 List.nodup_range)]
      abel

/-- The contributions of the changed sites, as a difference of double sums. -/
theorem fast_update_core (f0 f1 : Nat → Nat → B → G) (gen0 gen1 : Gen B)
    (c0 c1 : Nat → Nat → List B) (hg0 : GenSpec gen0 c0) (hg1 : GenSpec gen1 c1) (full : Bool)
    (use0 use1 : Nat → Nat → Bool)
    (hW0 : full = false → ∀ i j, pairW f0 c0 use0 i j = pairW f0 c0 use0 j i)
    (hW1 : full = false → ∀ i j, pairW f1 c1 use1 i j = pairW f1 c1 use1 j i)
    (cnt0 cnt1 : Nat) (pop add : List Nat) (hpop : ValidSites cnt0 pop) (hadd : ValidSites cnt1 add)
    (hU : dsum (pairW f0 c0 use0) (complementaryIndices cnt0 pop) (complementaryIndices cnt0 pop)
      = dsum (pairW f1 c1 use1) (complementaryIndices cnt1 add) (complementaryIndices cnt1 add))
    (rule0 rule1 : Bool) :
    traceSum f0 (basicTrace rule0 gen0 full use0 cnt0 0 1)
      + traceSum f0 (fastTrace gen0 gen1 full use0 use1 cnt0 cnt1 pop add 0 1).1
      + traceSum f1 (fastTrace gen0 gen1 full use0 use1 cnt0 cnt1 pop add 0 1).2
      = traceSum f1 (basicTrace rule1 gen1 full use1 cnt1 0 1) := by
  rw [basicTrace_serial, basicTrace_serial, basic_sum f0 gen0 c0 hg0 full use0 hW0,
    basic_sum f1 gen1 c1 hg1 full use1 hW1]
  unfold fastTrace
  simp only
  rw [fast_removed f0 gen0 c0 hg0 full use0 hW0 cnt0 pop hpop, hU,
    fast_added f1 gen1 c1 hg1 full use1 hW1 cnt1 add hadd]

theorem dsum_congr (W0 W1 : Nat → Nat → G) (l : List Nat) (h : ∀ i ∈ l, ∀ j ∈ l, W0 i j = W1 i j) :
    dsum W0 l l = dsum W1 l l := by
  unfold dsum
  congr 1
  apply List.map_congr_left
  intro i hi
  congr 1
  exact List.map_congr_left fun j hj => h i hi j hj

/-- **C11**, site-by-site differences (any mask, contributions that may depend on site indices,
serial): value of the old structure plus the contributions of the fast update is the value of
the new structure.  The sites outside `pop` and `add` are the same and have the same bonds,
contributions and masks in the two structures. -/
theorem fast_update_sideBySide (f0 f1 : Nat → Nat → B → G) (gen0 gen1 : Gen B)
    (c0 c1 : Nat → Nat → List B) (hg0 : GenSpec gen0 c0) (hg1 : GenSpec gen1 c1) (full : Bool)
    (use0 use1 : Nat → Nat → Bool)
    (hsym0 : full = false → ∀ i j, use0 i j = use0 j i ∧
      ((c0 i j).map (f0 i j)).sum = ((c0 j i).map (f0 j i)).sum)
    (hsym1 : full = false → ∀ i j, use1 i j = use1 j i ∧
      ((c1 i j).map (f1 i j)).sum = ((c1 j i).map (f1 j i)).sum)
    (cnt0 cnt1 : Nat) (pop add : List Nat) (hpop : ValidSites cnt0 pop) (hadd : ValidSites cnt1 add)
    (hcommon : ∀ k, (k < cnt0 ∧ k ∉ pop) ↔ (k < cnt1 ∧ k ∉ add))
    (hsame : ∀ i j, i < cnt0 → j < cnt0 → i ∉ pop → j ∉ pop →
      use0 i j = use1 i j ∧ ((c0 i j).map (f0 i j)).sum = ((c1 i j).map (f1 i j)).sum)
    (rule0 rule1 : Bool) :
    traceSum f0 (basicTrace rule0 gen0 full use0 cnt0 0 1)
      + traceSum f0 (fastTrace gen0 gen1 full use0 use1 cnt0 cnt1 pop add 0 1).1
      + traceSum f1 (fastTrace gen0 gen1 full use0 use1 cnt0 cnt1 pop add 0 1).2
      = traceSum f1 (basicTrace rule1 gen1 full use1 cnt1 0 1) := by
  apply fast_update_core f0 f1 gen0 gen1 c0 c1 hg0 hg1 full use0 use1 _ _ cnt0 cnt1 pop add hpop hadd
  · have hm0 : ∀ k, k ∈ complementaryIndices cnt0 pop ↔ (k < cnt0 ∧ k ∉ pop) := by
      intro k; rw [compl_eq cnt0 pop hpop.1 hpop.2]; simp
    have hm1 : ∀ k, k ∈ complementaryIndices cnt1 add ↔ (k < cnt1 ∧ k ∉ add) := by
      intro k; rw [compl_eq cnt1 add hadd.1 hadd.2]; simp
    have hnd0 : (complementaryIndices cnt0 pop).Nodup := by
      rw [compl_eq cnt0 pop hpop.1 hpop.2]; exact List.nodup_range.filter _
    have hnd1 : (complementaryIndices cnt1 add).Nodup := by
      rw [compl_eq cnt1 add hadd.1 hadd.2]; exact List.nodup_range.filter _
    have hp : (complementaryIndices cnt0 pop).Perm (complementaryIndices cnt1 add) := by
      rw [List.perm_ext_iff_of_nodup hnd0 hnd1]
      intro k; rw [hm0, hm1]; exact hcommon k
    rw [← dsum_perm _ hp hp]
    apply dsum_congr
    intro i hi j hj
    obtain ⟨h1, h2⟩ := (hm0 i).1 hi
    obtain ⟨h3, h4⟩ := (hm0 j).1 hj
    obtain ⟨e1, e2⟩ := hsame i j h1 h3 h2 h4
    unfold pairW
    rw [e1, e2]
  · intro hf i j; obtain ⟨h1, h2⟩ := hsym0 hf i j; unfold pairW; rw [h1, h2]
  · intro hf i j; obtain ⟨h1, h2⟩ := hsym1 hf i j; unfold pairW; rw [h1, h2]

/-- Double sum over a list of atoms plus a diagonal term. -/
def atomSum {A : Type} (K : A → A → G) (D : A → G) (l : List A) : G :=
  (l.map fun a => (l.map fun b => K a b).sum).sum + (l.map D).sum

theorem atomSum_perm {A : Type} (K : A → A → G) (D : A → G) {l l' : List A} (h : l.Perm l') :
    atomSum K D l = atomSum K D l' := by
  unfold atomSum
  have h1 : ∀ a, (l.map fun b => K a b).sum = (l'.map fun b => K a b).sum := fun a => (h.map _).sum_eq
  simp only [h1]
  rw [(h.map _).sum_eq, (h.map D).sum_eq]

theorem single_sum (l : List Nat) (hnd : l.Nodup) (i : Nat) (hi : i ∈ l) (x : G) :
    (l.map fun j => if i = j then x else 0).sum = x := by
  induction l with
  | nil => simp at hi
  | cons a l ih =>
    rw [List.nodup_cons] at hnd
    rcases List.mem_cons.1 hi with h | h
    · subst h
      have : (l.map fun j => if i = j then x else 0) = l.map fun _ => (0 : G) := by
        apply List.map_congr_left
        intro j hj
        have : i ≠ j := fun e => hnd.1 (e ▸ hj)
        simp [this]
      simp [this]
    · have hne : i ≠ a := fun e => hnd.1 (e ▸ h)
      simp [hne, ih hnd.2 h]

theorem list_sum_map_add {A : Type} (l : List A) (g h : A → G) :
    (l.map fun a => g a + h a).sum = (l.map g).sum + (l.map h).sum := by
  induction l with
  | nil => simp
  | cons a l ih => simp only [List.map_cons, List.sum_cons, ih]; abel

theorem dsum_atoms {A : Type} (W : Nat → Nat → G) (atom : Nat → A) (K : A → A → G) (S : A → G)
    (l : List Nat) (hnd : l.Nodup)
    (h : ∀ i ∈ l, ∀ j ∈ l, W i j = if i = j then S (atom i) else K (atom i) (atom j)) :
    dsum W l l = atomSum K (fun a => S a - K a a) (l.map atom) := by
  have h' : ∀ i ∈ l, ∀ j ∈ l, W i j
      = K (atom i) (atom j) + if i = j then S (atom i) - K (atom i) (atom i) else 0 := by
    intro i hi j hj
    rw [h i hi j hj]
    by_cases e : i = j
    · subst e; simp
    · simp [e]
  rw [dsum_congr W _ l h']
  unfold dsum atomSum
  have e2 : ∀ i ∈ l, (l.map fun j => K (atom i) (atom j)
        + if i = j then S (atom i) - K (atom i) (atom i) else 0).sum
      = (l.map fun j => K (atom i) (atom j)).sum + (S (atom i) - K (atom i) (atom i)) := by
    intro i hi
    rw [list_sum_map_add, single_sum l hnd i hi]
  rw [List.map_congr_left e2, list_sum_map_add]
  simp only [List.map_map, Function.comp_def]

/-- **C11**, sorted differences (contributions independent of site indices): bonds and masks
between two different sites depend only on their atoms through `K`, those of a site with itself
(its periodic images) through `S`.  If removing `pop` and `add` leaves the same multiset of atoms
then the fast update from the old value gives the value of the new structure. -/
theorem fast_update_sorted {A : Type} (f0 f1 : Nat → Nat → B → G) (gen0 gen1 : Gen B)
    (c0 c1 : Nat → Nat → List B) (hg0 : GenSpec gen0 c0) (hg1 : GenSpec gen1 c1) (full : Bool)
    (use0 use1 : Nat → Nat → Bool)
    (hsym0 : full = false → ∀ i j, use0 i j = use0 j i ∧
      ((c0 i j).map (f0 i j)).sum = ((c0 j i).map (f0 j i)).sum)
    (hsym1 : full = false → ∀ i j, use1 i j = use1 j i ∧
      ((c1 i j).map (f1 i j)).sum = ((c1 j i).map (f1 j i)).sum)
    (cnt0 cnt1 : Nat) (pop add : List Nat) (hpop : ValidSites cnt0 pop) (hadd : ValidSites cnt1 add)
    (atom0 atom1 : Nat → A) (K : A → A → G) (S : A → G)
    (hK0 : ∀ i j, i < cnt0 → j < cnt0 →
      (if use0 i j = true then ((c0 i j).map (f0 i j)).sum else 0)
        = if i = j then S (atom0 i) else K (atom0 i) (atom0 j))
    (hK1 : ∀ i j, i < cnt1 → j < cnt1 →
      (if use1 i j = true then ((c1 i j).map (f1 i j)).sum else 0)
        = if i = j then S (atom1 i) else K (atom1 i) (atom1 j))
    (hrest : (((List.range cnt0).filter fun k => !decide (k ∈ pop)).map atom0).Perm
      (((List.range cnt1).filter fun k => !decide (k ∈ add)).map atom1))
    (rule0 rule1 : Bool) :
    traceSum f0 (basicTrace rule0 gen0 full use0 cnt0 0 1)
      + traceSum f0 (fastTrace gen0 gen1 full use0 use1 cnt0 cnt1 pop add 0 1).1
      + traceSum f1 (fastTrace gen0 gen1 full use0 use1 cnt0 cnt1 pop add 0 1).2
      = traceSum f1 (basicTrace rule1 gen1 full use1 cnt1 0 1) := by
  apply fast_update_core f0 f1 gen0 gen1 c0 c1 hg0 hg1 full use0 use1 _ _ cnt0 cnt1 pop add hpop hadd
  · rw [compl_eq cnt0 pop hpop.1 hpop.2, compl_eq cnt1 add hadd.1 hadd.2]
    rw [dsum_atoms (pairW f0 c0 use0) atom0 K S _ (List.nodup_range.filter _),
      dsum_atoms (pairW f1 c1 use1) atom1 K S _ (List.nodup_range.filter _), atomSum_perm _ _ hrest]
    · intro i hi j hj
      simp only [List.mem_filter, List.mem_range] at hi hj
      exact hK1 i j hi.1 hj.1
    · intro i hi j hj
      simp only [List.mem_filter, List.mem_range] at hi hj
      exact hK0 i j hi.1 hj.1
  · intro hf i j; obtain ⟨h1, h2⟩ := hsym0 hf i j; unfold pairW; rw [h1, h2]
  · intro hf i j; obtain ⟨h1, h2⟩ := hsym1 hf i j; unfold pairW; rw [h1, h2]

/-- **C11**, in parallel: the increments computed by the jobs of all CPUs add up to the serial
increment of the fast update. -/
theorem fast_update_parallel (f0 f1 : Nat → Nat → B → G) (gen0 gen1 : Gen B) (full : Bool)
    (use0 use1 : Nat → Nat → Bool) (cnt0 cnt1 : Nat) (pop add : List Nat) (ncpu : Nat)
    (hn : 1 ≤ ncpu) :
    ∑ k ∈ Finset.range ncpu,
      (traceSum f0 (fastTrace gen0 gen1 full use0 use1 cnt0 cnt1 pop add (k : Int) (ncpu : Int)).1
        + traceSum f1 (fastTrace gen0 gen1 full use0 use1 cnt0 cnt1 pop add (k : Int) (ncpu : Int)).2)
      = traceSum f0 (fastTrace gen0 gen1 full use0 use1 cnt0 cnt1 pop add 0 1).1
        + traceSum f1 (fastTrace gen0 gen1 full use0 use1 cnt0 cnt1 pop add 0 1).2 := by
  obtain ⟨h1, h2⟩ := parallel_fast_partition gen0 gen1 full use0 use1 cnt0 cnt1 pop add ncpu hn 0
  rw [← traceSum_perm f0 h1, ← traceSum_perm f1 h2, traceSum_flatMap, traceSum_flatMap,
    Finset.sum_add_distrib]
  simp only [zero_add]

/-! A concrete fast update: four sites, site 1 replaced; the contribution of a pair is the
product of atom weights (4,3,2,1) → (4,7,2,1); the mask lets through all but the pair {0,3}. -/

def exAtom0 : Nat → Int := fun i => [4, 3, 2, 1].getD i 0
def exAtom1 : Nat → Int := fun i => [4, 7, 2, 1].getD i 0
def exUse : Nat → Nat → Bool := fun i j => !(decide (i = 0 ∧ j = 3) || decide (i = 3 ∧ j = 0))

example : fastTrace exGen exGen false exUse exUse 4 4 [1] [1] 0 1
    = ([⟨1, 0, -2, 10⟩, ⟨1, 2, -2, 12⟩, ⟨1, 3, -2, 13⟩],
       [⟨1, 0, 2, 10⟩, ⟨1, 2, 2, 12⟩, ⟨1, 3, 2, 13⟩]) := by decide
example : ValidSites 4 [1] := ⟨by decide, by decide⟩
example : ∀ k, (k < 4 ∧ k ∉ [1]) ↔ (k < 4 ∧ k ∉ [1]) := fun _ => Iff.rfl
example : traceSum (fun i j (_ : Nat) => exAtom0 i * exAtom0 j) (basicTrace true exGen false exUse 4 0 1) = 62
    ∧ traceSum (fun i j (_ : Nat) => exAtom1 i * exAtom1 j) (basicTrace true exGen false exUse 4 0 1) = 118 := by
  decide

end Verif.Eval
