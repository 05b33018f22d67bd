import Verif.Lemmas.BondCalc
set_option linter.unusedSectionVars false
/-!
Properties of BondCalculator: C16 (stored bonds) and C17 (cone filters).
-/
namespace Verif.BondCalc
open Verif.Eval Verif.Diff Verif.History

/-! ## C16: the order -/

section Order
variable {R : Type} [LinearOrder R]

/-- **C16**: the order of the bonds is the lexicographic one of (distance, site0, site1, direction),
a strict total order. -/
theorem compare_lex (a b : Entry R) : compare a b = true ↔
    a.distance < b.distance ∨ a.distance = b.distance ∧ (a.site0 < b.site0 ∨ a.site0 = b.site0 ∧
      (a.site1 < b.site1 ∨ a.site1 = b.site1 ∧ (a.direction0 < b.direction0 ∨
        a.direction0 = b.direction0 ∧ (a.direction1 < b.direction1 ∨ a.direction1 = b.direction1 ∧
          a.direction2 < b.direction2)))) := by
  rw [compare_iff]
  unfold key
  simp only [Prod.Lex.toLex_lt_toLex]

theorem compare_total (a b : Entry R) :
    (compare a b = true ∧ compare b a = false ∧ a ≠ b) ∨ (compare a b = false ∧ compare b a = true ∧ a ≠ b)
      ∨ (compare a b = false ∧ compare b a = false ∧ a = b) := by
  simp only [compare_iff, compare_false_iff]
  rcases lt_trichotomy (key a) (key b) with h | h | h
  · exact Or.inl ⟨h, h.le, fun e => by rw [e] at h; exact absurd h (lt_irrefl _)⟩
  · exact Or.inr (Or.inr ⟨h.ge, h.le, key_inj h⟩)
  · exact Or.inr (Or.inl ⟨h.le, h, fun e => by rw [e] at h; exact absurd h (lt_irrefl _)⟩)

/-- **C16**: the in-place merge of two sorted arrays is sorted and keeps every entry. -/
theorem bmerge_correct (fill : Entry R) (dst src : List (Entry R)) (h1 : Sorted dst) (h2 : Sorted src) :
    Sorted (bmerge fill dst src) ∧ (bmerge fill dst src).Perm (dst ++ src) :=
  ⟨bmerge_sorted fill dst src h1 h2, bmerge_perm fill dst src⟩

end Order

/-! ## C16: specification -/

section Spec
variable {C S R : Type} [LinearOrder R]

/-- The entries of all bonds between the `cnt` sites, both directions, that the mask and the filter let
through. -/
def specBonds (bonds : Nat → Nat → List (BData R)) (use : Nat → Nat → Bool) (pass : BData R → Bool)
    (cnt : Nat) : List (Entry R) :=
  (List.range cnt).flatMap fun i => (List.range cnt).flatMap fun j =>
    if use i j = true then ((bonds i j).filter pass).map fun b => ⟨b.distance, i, j, b.r0, b.r1, b.r2⟩
    else []

/-- The bonds of structure `stru` under configuration `c`. -/
def Cls.spec (k : Cls C S R) (bonds : C → S → Nat → Nat → List (BData R)) (c : C) (stru : S) :
    List (Entry R) :=
  specBonds (bonds c stru) (k.use c stru) (k.pass c) (k.count stru)

/-- What is assumed of generators and structures: the generator yields the bonds `bonds c s i j`
(proved for the three generators in C14, C15, C46); a side-by-side difference is sound (proved for
atomic structures in C09); `customPQConfig` clicks when it changes the configuration. -/
structure BLawful (k : Cls C S R) (bonds : C → S → Nat → Nat → List (BData R)) : Prop where
  gen : ∀ c s, GenSpec (k.gen c s) (bonds c s)
  custom : ∀ s c, (k.custom s c).2 = false → (k.custom s c).1 = c
  diff : ∀ s0 s1, (k.diff s0 s1).allowsFast = true → (k.diff s0 s1).method = .sideBySide →
    ValidSites (k.count s0) (k.diff s0 s1).pop0 ∧ ValidSites (k.count s1) (k.diff s0 s1).add1 ∧
    (∀ i, (i < k.count s0 ∧ i ∉ (k.diff s0 s1).pop0) ↔ (i < k.count s1 ∧ i ∉ (k.diff s0 s1).add1)) ∧
    (∀ c i j, i < k.count s0 → j < k.count s0 → i ∉ (k.diff s0 s1).pop0 → j ∉ (k.diff s0 s1).pop0 →
      k.use c s0 i j = k.use c s1 i j ∧ bonds c s0 i j = bonds c s1 i j)

/-! ## Proof -/

/-- Entries of the contributions that pass. -/
def entries (pass : BData R → Bool) (tr : List (Contrib (BData R))) : List (Entry R) :=
  (tr.filter fun t => pass t.bond).map fun t => entryFrom t.i0 t.i1 t.bond

theorem fold_add (pass : BData R → Bool) (tr : List (Contrib (BData R))) (h : ∀ t ∈ tr, t.scale = 1)
    (d : Data R) : tr.foldl (addPairContribution pass) d = { d with add := d.add ++ entries pass tr } := by
  induction tr generalizing d with
  | nil => simp [entries]
  | cons t tr ih =>
    rw [List.foldl_cons, ih fun t ht => h t (by simp [ht])]
    have hs := h t (by simp)
    unfold addPairContribution entries
    by_cases hp : pass t.bond = true
    · simp [hp, hs]
    · simp [hp]

theorem fold_pop (pass : BData R → Bool) (tr : List (Contrib (BData R))) (h : ∀ t ∈ tr, t.scale = -1)
    (d : Data R) : tr.foldl (addPairContribution pass) d = { d with pop := d.pop ++ entries pass tr } := by
  induction tr generalizing d with
  | nil => simp [entries]
  | cons t tr ih =>
    rw [List.foldl_cons, ih fun t ht => h t (by simp [ht])]
    have hs := h t (by simp)
    unfold addPairContribution entries
    by_cases hp : pass t.bond = true
    · simp [hp, hs]
    · simp [hp]

theorem sum_count (k : Cls C S R) (c : C) (s : S) (z : Int) (tr : List (Contrib (BData R)))
    (h : ∀ t ∈ tr, t.scale = z) (e : Entry R) :
    traceSum (k.calc.con c s) tr e = z * ((entries (k.pass c) tr).count e : Int) := by
  induction tr with
  | nil => simp [entries, traceSum]
  | cons t tr ih =>
    have ih' := ih fun t ht => h t (by simp [ht])
    have hs := h t (by simp)
    have e1 : traceSum (k.calc.con c s) (t :: tr) e
        = t.scale * k.calc.con c s t.i0 t.i1 t.bond e + traceSum (k.calc.con c s) tr e := by
      simp [traceSum]
    rw [e1, ih', hs]
    unfold entries Cls.calc
    simp only
    by_cases hp : k.pass c t.bond = true
    · by_cases he : entryFrom t.i0 t.i1 t.bond = e
      · simp [hp, he]; ring
      · simp [hp, he]
    · simp [hp]

theorem inner_scale (z : Int) (use : Nat → Nat → Bool) (chop : Bool) (ncpu : Int) (i0 : Nat)
    (l : List (Nat × BData R)) (n : Int) :
    ∀ t ∈ (innerLoop z true use chop ncpu i0 l n).2, t.scale = z := by
  induction l generalizing n with
  | nil => intro t h; simp [innerLoop] at h
  | cons p l ih =>
    obtain ⟨i1, b⟩ := p
    intro t h
    rw [innerLoop] at h
    split at h
    · exact ih _ t h
    · simp only at h
      split at h
      · rcases List.mem_cons.1 h with rfl | h
        · rfl
        · exact ih _ t h
      · exact ih _ t h

theorem basic_scale (rule : Bool) (gen : Gen (BData R)) (use : Nat → Nat → Bool) (cnt : Nat)
    (i n : Int) : ∀ t ∈ basicTrace rule gen true use cnt i n, t.scale = 1 := by
  unfold basicTrace
  simp only
  generalize List.range cnt = l
  generalize (decide (n > 1) && rule) = co
  generalize (decide (n > 1) && !rule) = ci
  induction l generalizing i with
  | nil => intro t h; simp [basicLoop] at h
  | cons a l ih =>
    intro t h
    rw [basicLoop] at h
    split at h
    · exact ih _ t h
    · rcases List.mem_append.1 h with h | h
      · exact inner_scale _ _ _ _ _ _ _ t h
      · exact ih _ t h

theorem remove_scale (gen : Gen (BData R)) (use : Nat → Nat → Bool) (cnt : Nat) (pop : List Nat)
    (i n : Int) : ∀ t ∈ (removeTrace gen true use cnt pop i n).2, t.scale = -1 := by
  unfold removeTrace
  have key : ∀ (l : List Nat) (todo pos : Nat) (i : Int) (sel : List Nat) (needs : Bool),
      ∀ t ∈ (removeLoop gen true use n pop l todo pos i sel needs).2, t.scale = -1 := by
    intro l
    induction l with
    | nil => intro todo pos i sel needs t h; cases todo <;> simp [removeLoop] at h
    | cons a l ih =>
      intro todo pos i sel needs t h
      cases todo with
      | zero => simp [removeLoop] at h
      | succ todo =>
        rw [removeLoop] at h
        split at h
        · exact ih _ _ _ _ _ t h
        · rcases List.mem_append.1 h with h | h
          · exact inner_scale _ _ _ _ _ _ _ t h
          · exact ih _ _ _ _ _ t h
  exact key _ _ _ _ _ _

theorem add_scale (gen : Gen (BData R)) (use : Nat → Nat → Bool) (cnt : Nat) (add : List Nat)
    (i n : Int) : ∀ t ∈ addTrace gen true use cnt add i n, t.scale = 1 := by
  unfold addTrace
  simp only [if_true]
  generalize (if add.isEmpty = true then [] else complementaryIndices cnt add) ++ add = l
  have key : ∀ (rest pre : List Nat) (i : Int) (sel : List Nat) (needs : Bool),
      ∀ t ∈ addLoop gen true use n l add pre rest i sel needs, t.scale = 1 := by
    intro rest
    induction rest with
    | nil => intro pre i sel needs t h; simp [addLoop] at h
    | cons a rest ih =>
      intro pre i sel needs t h
      rw [addLoop] at h
      split at h
      · exact ih _ _ _ _ t h
      · rcases List.mem_append.1 h with h | h
        · exact inner_scale _ _ _ _ _ _ _ t h
        · exact ih _ _ _ _ t h
  exact key _ _ _ _ _

/-- The contributions of a full serial evaluation are the bonds of the specification. -/
theorem entries_spec (k : Cls C S R) (bonds : C → S → Nat → Nat → List (BData R)) (hk : BLawful k bonds)
    (c : C) (s : S) (rule : Bool) (n : Int) :
    (entries (k.pass c) (basicTrace rule (k.gen c s) true (k.use c s) (k.count s) n 1)).Perm
      (k.spec bonds c s) := by
  have h := basic_serial_spec rule (k.gen c s) (bonds c s) (hk.gen c s) true (k.use c s) (k.count s) n
  refine ((h.filter _).map _).trans (List.Perm.of_eq ?_)
  unfold specContribs Cls.spec specBonds
  simp only [true_or, true_and, if_true]
  rw [List.filter_flatMap, List.map_flatMap]
  apply List.flatMap_congr
  intro i _
  rw [List.filter_flatMap, List.map_flatMap]
  apply List.flatMap_congr
  intro j _
  by_cases hu : k.use c s i j = true
  · simp only [hu, if_true, List.filter_map, List.map_map]
    rfl
  · simp [hu]

theorem lawful (k : Cls C S R) (bonds : C → S → Nat → Nat → List (BData R)) (hk : BLawful k bonds) :
    Lawful k.calc where
  custom := hk.custom
  close _ := rfl
  fast := by
    intro c s0 s1 hf hm
    have hm' : (k.diff s0 s1).method = .sideBySide := hm (by simp [Cls.calc])
    obtain ⟨v0, v1, hc, hs⟩ := hk.diff s0 s1 hf hm'
    unfold basicValue
    exact fast_update_sideBySide (k.calc.con c s0) (k.calc.con c s1) (k.gen c s0) (k.gen c s1) (bonds c s0)
      (bonds c s1) (hk.gen c s0) (hk.gen c s1) true (k.use c s0) (k.use c s1) (by intro h; cases h)
      (by intro h; cases h) _ _ _ _ v0 v1 hc
      (fun i j hi hj hip hjp => by
        obtain ⟨e1, e2⟩ := hs c i j hi hj hip hjp
        exact ⟨e1, by rw [e2]; rfl⟩) true true

theorem basicValue_count (k : Cls C S R) (bonds : C → S → Nat → Nat → List (BData R))
    (hk : BLawful k bonds) (c : C) (s : S) (e : Entry R) :
    basicValue k.calc c s e = ((k.spec bonds c s).count e : Int) := by
  have h := sum_count k c s 1 (basicTrace true (k.gen c s) true (k.use c s) (k.count s) 0 1)
    (basic_scale _ _ _ _ _ _) e
  rw [one_mul, (entries_spec k bonds hk c s true 0).count_eq] at h
  exact h

theorem list_sum_nonneg (l : List Int) (h : ∀ x ∈ l, 0 ≤ x) : 0 ≤ l.sum := by
  induction l with
  | nil => simp
  | cons a l ih =>
    rw [List.sum_cons]
    have := ih fun x hx => h x (by simp [hx])
    have := h a (by simp)
    omega

/-- The entries removed by a fast update are among the bonds of the old structure. -/
theorem removed_le (k : Cls C S R) (bonds : C → S → Nat → Nat → List (BData R)) (hk : BLawful k bonds)
    (c : C) (s : S) (pop : List Nat) (hp : ValidSites (k.count s) pop) (e : Entry R) (n : Int) :
    (entries (k.pass c) (removeTrace (k.gen c s) true (k.use c s) (k.count s) pop n 1).2).count e
      ≤ (k.spec bonds c s).count e := by
  let f : Nat → Nat → BData R → Int := fun i j b => k.calc.con c s i j b e
  have hf : ∀ tr, traceSum f tr = traceSum (k.calc.con c s) tr e := by
    intro tr
    induction tr with
    | nil => rfl
    | cons t tr ih =>
      have e1 : traceSum f (t :: tr) = t.scale * f t.i0 t.i1 t.bond + traceSum f tr := by
        simp [traceSum]
      have e2 : traceSum (k.calc.con c s) (t :: tr) e
          = t.scale * k.calc.con c s t.i0 t.i1 t.bond e + traceSum (k.calc.con c s) tr e := by
        simp [traceSum]
      rw [e1, e2, ih]
  have h := fast_removed f (k.gen c s) (bonds c s) (hk.gen c s) true (k.use c s) (by intro h; cases h)
    (k.count s) pop hp n
  rw [hf, sum_count k c s (-1) _ (remove_scale _ _ _ _ _ _)] at h
  have hb := basic_value f true (k.gen c s) (bonds c s) (hk.gen c s) true (k.use c s) (by intro h; cases h)
    (k.count s)
  rw [pairSum_eq, hf] at hb
  have hv := basicValue_count k bonds hk c s e
  unfold basicValue at hv
  have hv' : traceSum (k.calc.con c s) (basicTrace true (k.gen c s) true (k.use c s) (k.count s) 0 1) e
      = ((k.spec bonds c s).count e : Int) := hv
  rw [hv'] at hb
  rw [← hb] at h
  have hnn : 0 ≤ dsum (pairW f (bonds c s) (k.use c s)) (complementaryIndices (k.count s) pop)
      (complementaryIndices (k.count s) pop) := by
    unfold dsum
    apply list_sum_nonneg
    intro x hx
    obtain ⟨i, _, rfl⟩ := List.mem_map.1 hx
    apply list_sum_nonneg
    intro y hy
    obtain ⟨j, _, rfl⟩ := List.mem_map.1 hy
    unfold pairW
    split
    · apply list_sum_nonneg
      intro z hz
      obtain ⟨b, _, rfl⟩ := List.mem_map.1 hz
      simp only [f, Cls.calc]
      split <;> decide
    · exact le_refl _
  omega

/-- `finishValue` of a serial calculator. -/
theorem finish_serial (fill : Entry R) (d : Data R) (hs : Sorted d.bonds) :
    Sorted (finishValue fill false d).bonds ∧ (finishValue fill false d).pop = [] ∧
    (finishValue fill false d).add = [] ∧
    (finishValue fill false d).value = (finishValue fill false d).bonds.map Entry.distance ∧
    ∀ e, (finishValue fill false d).bonds.count e = d.bonds.count e - d.pop.count e + d.add.count e := by
  unfold finishValue
  simp only [Bool.false_eq_true, if_false, true_and]
  have hd := setDifference_sorted d.bonds (bsort d.pop) hs
  have hc := setDifference_count d.bonds (bsort d.pop) hs (bsort_sorted d.pop)
  by_cases he : (setDifference d.bonds (bsort d.pop)).isEmpty = true
  · rw [if_pos he]
    refine ⟨bsort_sorted _, ?_⟩
    intro e
    have h0 := hc e
    rw [List.isEmpty_iff.1 he, (bsort_perm d.pop).count_eq] at h0
    rw [(bsort_perm d.add).count_eq]
    simp only [List.count_nil] at h0
    omega
  · rw [if_neg he]
    refine ⟨bmerge_sorted _ _ _ hd (bsort_sorted _), ?_⟩
    intro e
    rw [(bmerge_perm _ _ _).count_eq, List.count_append, hc e, (bsort_perm d.pop).count_eq,
      (bsort_perm d.add).count_eq]

/-- Invariant of the arrays along a history; `t` is the taint of Props/History.lean. -/
structure JInv (s : BC C S R) (t : Bool) : Prop where
  pop : s.d.pop = []
  add : s.d.add = []
  sorted : Sorted s.d.bonds
  cpu : s.h.cpuindex = 0
  ncpu : s.h.ncpu = 1
  ev : s.h.evtype ≠ .check
  rel : t = false → s.h.pqTick ≥ s.h.valTick ∨ s.h.last = none ∨
    ∀ e, (s.d.bonds.count e : Int) = s.h.value e

theorem full_count (k : Cls C S R) (c : C) (stru : S) (d : Data R) :
    (fullData k c 0 1 stru d).bonds = [] ∧ (fullData k c 0 1 stru d).pop = [] ∧
    ∀ e, ((fullData k c 0 1 stru d).add.count e : Int)
      = bval k.calc (k.custom stru c).1 stru 0 1 e := by
  unfold fullData
  simp only
  rw [fold_add _ _ (basic_scale _ _ _ _ _ _)]
  refine ⟨rfl, rfl, ?_⟩
  intro e
  unfold bval
  have h := sum_count k (k.custom stru c).1 stru 1 (basicTrace (k.rule (k.count stru) 1)
    (k.gen (k.custom stru c).1 stru) true (k.use (k.custom stru c).1 stru) (k.count stru) 0 1)
    (basic_scale _ _ _ _ _ _) e
  rw [one_mul] at h
  exact h.symm

theorem joint_eval (k : Cls C S R) (bonds : C → S → Nat → Nat → List (BData R)) (hk : BLawful k bonds)
    (fill : Entry R) (s : BC C S R) (t : Bool) (hj : JInv s t)
    (hI : Inv k.calc 1 (fun _ => s.h) t) (stru : S) :
    JInv (bcEval k fill s stru) (t && decide ((evalSt k.calc s.h stru).used ≠ .basic)) ∧
      ((evalSt k.calc s.h stru).used = .basic ∨ t = false → ∀ e, ((bcEval k fill s stru).d.bonds.count e : Int) = (bcEval k fill s stru).h.value e) ∧
      (bcEval k fill s stru).d.value = (bcEval k fill s stru).d.bonds.map Entry.distance := by
  have hpar : decide (s.h.ncpu > 1) = false := by rw [hj.ncpu]; decide
  have hfull : ∀ (c : C) (d : Data R), Sorted (fullData k c 0 1 stru d).bonds ∧
      ∀ e, ((finishValue fill false (fullData k c 0 1 stru d)).bonds.count e : Int)
        = bval k.calc (k.custom stru c).1 stru 0 1 e := by
    intro c d
    obtain ⟨f1, f2, f3⟩ := full_count k c stru d
    have hs : Sorted (fullData k c 0 1 stru d).bonds := by rw [f1]; exact List.Pairwise.nil
    refine ⟨hs, ?_⟩
    intro e
    rw [(finish_serial fill _ hs).2.2.2.2 e, ← f3 e, f1, f2]
    simp
  -- the data before finishValue and the ghost value after the evaluation
  have key : Sorted (evalData k s.h stru s.d).bonds ∧ ((evalSt k.calc s.h stru).used = .basic ∨ t = false → ∀ e,
      ((finishValue fill false (evalData k s.h stru s.d)).bonds.count e : Int)
        = (evalSt k.calc s.h stru).value e) := by
    rw [evalSt_eq]
    unfold evalData
    cases hev : s.h.evtype with
    | check => exact absurd hev hj.ev
    | none =>
      simp only
      rw [hj.cpu, hj.ncpu]
      exact ⟨(hfull _ _).1, fun _ => (hfull _ _).2⟩
    | basic =>
      simp only
      rw [hj.cpu, hj.ncpu]
      exact ⟨(hfull _ _).1, fun _ => (hfull _ _).2⟩
    | optimized =>
      simp only
      unfold optData optFinal
      cases hf : fastChoice k.calc s.h stru with
      | none =>
        simp only
        rw [hj.cpu, hj.ncpu]
        exact ⟨(hfull _ _).1, fun _ => (hfull _ _).2⟩
      | some p =>
        obtain ⟨s0, df⟩ := p
        simp only
        split
        · rename_i hge
          rw [hj.cpu, hj.ncpu]
          have hcc : (k.custom stru (k.custom stru s.h.cfg).1).1
              = (k.calc.custom stru (midFast k.calc s0 stru df (setUsed .optimized s.h)).cfg).1 := by
            rw [midFast_cfg]; rfl
          refine ⟨(hfull _ _).1, fun _ e => ?_⟩
          rw [(hfull _ _).2 e, hcc]
          rfl
        · rename_i hge
          rw [fold_pop _ _ (remove_scale _ _ _ _ _ _), fold_add _ _ (add_scale _ _ _ _ _ _)]
          have hsort : Sorted (restorePartialValue (resetValue (stashPartialValue
              { s.d with pop := s.d.pop ++ entries (k.pass s.h.cfg) (removeTrace (k.gen s.h.cfg s0) true
                (k.use s.h.cfg s.h.cur) (k.count s0) df.pop0 s.h.cpuindex s.h.ncpu).2 }))).bonds := hj.sorted
          refine ⟨hsort, fun ht e => ?_⟩
          replace ht : t = false := by
            rcases ht with ht | ht
            · have hu : (fastFinal k.calc s0 stru df (setUsed .optimized s.h)).used = .optimized := by
                change (setStru k.calc stru _).used = _
                unfold setStru clickPq
                dsimp only
                split <;> rfl
              rw [hu] at ht
              cases ht
            · exact ht
          have hfin0 : ∀ d : Data R, Sorted d.bonds → (finishValue fill false d).bonds.count e
              = d.bonds.count e - d.pop.count e + d.add.count e := fun d h => (finish_serial fill d h).2.2.2.2 e
          rw [hfin0 _ (by exact hsort)]
          -- facts on the choice
          have hch : s.h.last = some s0 ∧ ¬ s.h.pqTick ≥ s.h.valTick ∧ df = k.diff s0 stru ∧
              df.allowsFast = true ∧ df.method = .sideBySide := by
            unfold fastChoice at hf
            cases hl : s.h.last with
            | none => rw [hl] at hf; cases hf
            | some x =>
              rw [hl] at hf
              simp only at hf
              split at hf
              · cases hf
              · rename_i hq
                split at hf
                · cases hf
                · rename_i ha
                  split at hf
                  · cases hf
                  · rename_i hm
                    simp only [Option.some.injEq, Prod.mk.injEq] at hf
                    obtain ⟨rfl, rfl⟩ := hf
                    refine ⟨rfl, hq, rfl, by simpa using ha, ?_⟩
                    simp only [Cls.calc, Bool.true_or, Bool.true_and, Bool.not_eq_true] at hm
                    exact not_not.1 (of_decide_eq_false hm)
          obtain ⟨hl, hq, hdf, hfast, hside⟩ := hch
          rcases hI.good ht with hg | hg | ⟨hg1, hg2⟩
          · exact absurd hg hq
          · rw [hg] at hl; cases hl
          have hs0 : s0 = s.h.cur := by
            have := hl.symm.trans hg1
            simpa using this
          have hrel : ∀ e, (s.d.bonds.count e : Int) = s.h.value e := by
            rcases hj.rel ht with h | h | h
            · exact absurd h hq
            · rw [h] at hl; cases hl
            · exact h
          simp only [Finset.range_one, Finset.sum_singleton] at hg2
          have hspec : s.d.bonds.count e = (k.spec bonds s.h.cfg s0).count e := by
            have := hrel e
            rw [hg2, basicValue_count k bonds hk, ← hs0] at this
            exact_mod_cast this
          have hle := removed_le k bonds hk s.h.cfg s0 df.pop0 (by
            rw [hdf] at hfast hside ⊢; exact (hk.diff s0 stru hfast hside).1) e s.h.cpuindex
          have hrem : remSum k.calc (setUsed .optimized s.h) s0 df e
              = - ((entries (k.pass s.h.cfg) (removeTrace (k.gen s.h.cfg s0) true (k.use s.h.cfg s0)
                (k.count s0) df.pop0 s.h.cpuindex 1).2).count e : Int) := by
            have := sum_count k s.h.cfg s.h.cur (-1) (removeTrace (k.gen s.h.cfg s0) true (k.use s.h.cfg s.h.cur)
                (k.count s0) df.pop0 s.h.cpuindex s.h.ncpu).2 (remove_scale _ _ _ _ _ _) e
            rw [hj.ncpu] at this
            unfold remSum
            rw [← hs0] at this
            have e2 : (setUsed .optimized s.h : St C S (Entry R → Int)).cur = s0 := hs0.symm
            have e3 : (setUsed .optimized s.h : St C S (Entry R → Int)).ncpu = 1 := hj.ncpu
            rw [e2, e3]
            rw [neg_one_mul] at this
            exact this
          have hadd := sum_count k (k.custom stru s.h.cfg).1 stru 1 (addTrace (k.gen (k.custom stru s.h.cfg).1 stru)
              true (k.use (k.custom stru s.h.cfg).1 stru) (k.count stru) df.add1 (removeTrace (k.gen s.h.cfg s0) true
                (k.use s.h.cfg s.h.cur) (k.count s0) df.pop0 s.h.cpuindex s.h.ncpu).1 s.h.ncpu)
              (add_scale _ _ _ _ _ _) e
          have hfin : (fastFinal k.calc s0 stru df (setUsed .optimized s.h)).value e
              = s.h.value e + remSum k.calc (setUsed .optimized s.h) s0 df e
                + addSum k.calc (setUsed .optimized s.h) s0 stru df e := rfl
          have haddS : addSum k.calc (setUsed .optimized s.h) s0 stru df e
              = traceSum (k.calc.con (k.custom stru s.h.cfg).1 stru) (addTrace (k.gen (k.custom stru s.h.cfg).1 stru)
              true (k.use (k.custom stru s.h.cfg).1 stru) (k.count stru) df.add1 (removeTrace (k.gen s.h.cfg s0) true
                (k.use s.h.cfg s.h.cur) (k.count s0) df.pop0 s.h.cpuindex s.h.ncpu).1 s.h.ncpu) e := rfl
          rw [hfin, haddS, hadd, hrem, ← hrel e, one_mul]
          simp only [restorePartialValue, resetValue, stashPartialValue, hj.pop, List.nil_append]
          rw [← hs0, hj.ncpu]
          rw [hspec]
          push_cast [hle]
          ring
  have hfs := finish_serial fill (evalData k s.h stru s.d) key.1
  have hkeep := eval_keeps k.calc s.h stru hI.bnd
  unfold bcEval
  rw [hpar]
  refine ⟨⟨hfs.2.1, hfs.2.2.1, hfs.1, hkeep.2.2.1.trans hj.cpu, hkeep.2.2.2.trans hj.ncpu, ?_,
    fun ht => Or.inr (Or.inr (key.2 (by
      simp only [Bool.and_eq_false_iff, decide_eq_false_iff_not, not_not] at ht
      exact ht.symm)))⟩, key.2, hfs.2.2.2.1⟩
  change (evalSt k.calc s.h stru).evtype ≠ .check
  rw [hkeep.2.1]; exact hj.ev

/-- Calls covered by C16: configuration calls click unless they change nothing, and the CHECK
evaluator is not used (see `check_throws` below). -/
def BAllowed : BOp C S → Prop
  | .configure f clicks => clicks = false → ∀ c, f c = c
  | .setType t => t ≠ .check
  | _ => True

theorem allowed_op (op : BOp C S) (h : BAllowed op) : Allowed 1 op.op := by
  cases op <;> simp_all [BOp.op, Allowed, BAllowed]

theorem bcStep_h (k : Cls C S R) (fill : Entry R) (s : BC C S R) (op : BOp C S) :
    (bcStep k fill s op).h = step k.calc s.h op.op := by
  cases op <;> rfl

theorem joint_step (k : Cls C S R) (bonds : C → S → Nat → Nat → List (BData R)) (hk : BLawful k bonds)
    (fill : Entry R) (s : BC C S R) (t : Bool) (hj : JInv s t)
    (hI : Inv k.calc 1 (fun _ => s.h) t) (op : BOp C S) (ha : BAllowed op) :
    JInv (bcStep k fill s op) (taint k.calc s.h t op.op) := by
  cases op with
  | eval stru => exact (joint_eval k bonds hk fill s t hj hI stru).1
  | setStructure stru =>
    have hkp := keeps_setStru k.calc stru s.h hI.bnd
    refine ⟨rfl, rfl, List.Pairwise.nil, hkp.2.2.1.trans hj.cpu, hkp.2.2.2.trans hj.ncpu, ?_,
      fun _ => Or.inr (Or.inr ?_)⟩
    · change (setStru k.calc stru s.h).evtype ≠ .check
      rw [hkp.2.1]; exact hj.ev
    · intro e
      change (([] : List (Entry R)).count e : Int) = (setStru k.calc stru s.h).value e
      rw [setStru_value]; rfl
  | configure f clicks =>
    cases clicks with
    | true =>
      exact ⟨hj.pop, hj.add, hj.sorted, hj.cpu, hj.ncpu, hj.ev,
        fun _ => Or.inl (Nat.le_succ_of_le hI.bnd.val)⟩
    | false =>
      refine ⟨hj.pop, hj.add, hj.sorted, hj.cpu, hj.ncpu, hj.ev, fun ht => ?_⟩
      have : t = false := by simpa [taint, BOp.op] using ht
      exact hj.rel this
  | setType ty =>
    have hne : ty ≠ .check := ha
    by_cases hsame : (setTypeSt k.calc ty s.h).evtype = s.h.evtype
    · have hst : setTypeSt k.calc ty s.h = s.h := by
        unfold setTypeSt at hsame ⊢
        split
        · rfl
        · rename_i h1
          rw [if_neg h1] at hsame
          split
          · rfl
          · rename_i h2
            rw [if_neg h2] at hsame
            split
            · rfl
            · rename_i h3
              rw [if_neg h3] at hsame
              exact absurd hsame.symm h1
      have e : bcStep k fill s (.setType ty) = s := by
        unfold bcStep
        simp only [hsame, if_true]
        change (⟨setTypeSt k.calc ty s.h, s.d⟩ : BC C S R) = s
        rw [hst]
      rw [e]
      have : taint k.calc s.h t (BOp.op (.setType ty)) = t := by
        simp [taint, BOp.op, hsame]
      rw [this]; exact hj
    · have hst : setTypeSt k.calc ty s.h = { s.h with evtype := ty, last := none, value := 0 } := by
        unfold setTypeSt at hsame ⊢
        split
        · rename_i h1; rw [if_pos h1] at hsame; exact absurd rfl hsame
        · rename_i h1
          rw [if_neg h1] at hsame
          split
          · rename_i h2; rw [if_pos h2] at hsame; exact absurd rfl hsame
          · rename_i h2
            rw [if_neg h2] at hsame
            split
            · rename_i h3; rw [if_pos h3] at hsame; exact absurd rfl hsame
            · rfl
      have e : bcStep k fill s (.setType ty)
          = ⟨{ s.h with evtype := ty, last := none, value := 0 }, resetValue s.d⟩ := by
        unfold bcStep
        simp only [hsame, if_false]
        change (⟨setTypeSt k.calc ty s.h, resetValue s.d⟩ : BC C S R) = _
        rw [hst]
      rw [e]
      exact ⟨rfl, rfl, List.Pairwise.nil, hj.cpu, hj.ncpu, hne, fun _ => Or.inr (Or.inl rfl)⟩

theorem joint_run (k : Cls C S R) (bonds : C → S → Nat → Nat → List (BData R)) (hk : BLawful k bonds)
    (fill : Entry R) (ops : List (BOp C S)) (ha : ∀ op ∈ ops, BAllowed op) (s : BC C S R) (t : Bool)
    (hj : JInv s t) (hI : Inv k.calc 1 (fun _ => s.h) t) :
    JInv (bcRun k fill s ops) (taintAfter k.calc s.h t (ops.map BOp.op)) ∧
    Inv k.calc 1 (fun _ => (bcRun k fill s ops).h) (taintAfter k.calc s.h t (ops.map BOp.op)) := by
  induction ops generalizing s t with
  | nil => exact ⟨hj, hI⟩
  | cons op ops ih =>
    have h1 := joint_step k bonds hk fill s t hj hI op (ha op (by simp))
    have h2 := inv_step k.calc (lawful k bonds hk) 1 (le_refl _) _ t hI op.op
      (allowed_op op (ha op (by simp)))
    simp only [← bcStep_h k fill] at h2
    have := ih (fun o ho => ha o (by simp [ho])) _ _ h1 h2
    simp only [bcStep_h] at this
    exact this

/-- **C16** (partial: serial calculators; histories as in C12; CHECK evaluator excluded): after every
`eval` at the end of any history the stored bonds are sorted and are, with multiplicity, exactly the
bonds of the evaluated structure that the mask and the filters let through; the returned values are
their distances in the same order. -/
theorem bonds_history_partial (k : Cls C S R) (bonds : C → S → Nat → Nat → List (BData R))
    (hk : BLawful k bonds) (fill : Entry R) (c : C) (e : S) (ops : List (BOp C S))
    (ha : ∀ op ∈ ops, BAllowed op)
    (ht : taintAfter k.calc (bcInit (R := R) c e).h false (ops.map BOp.op) = false) (stru : S) :
    let s := bcEval k fill (bcRun k fill (bcInit c e) ops) stru
    Sorted s.d.bonds ∧ s.d.bonds.Perm (k.spec bonds s.h.cfg stru) ∧
    s.d.value = s.d.bonds.map Entry.distance := by
  intro s
  have hj0 : JInv (bcInit (R := R) c e) false :=
    ⟨rfl, rfl, List.Pairwise.nil, rfl, rfl, by simp [bcInit], fun _ => Or.inr (Or.inl rfl)⟩
  have hI0 : Inv k.calc 1 (fun _ => (bcInit (R := R) c e).h) false :=
    ⟨fun _ _ => rfl, fun j hj => by obtain rfl : j = 0 := by omega
                                    rfl, rfl, ⟨Nat.le_refl _, Nat.le_refl _, fun _ _ => rfl⟩,
      fun _ => Or.inr (Or.inl rfl)⟩
  obtain ⟨hj, hI⟩ := joint_run k bonds hk fill ops ha _ _ hj0 hI0
  rw [ht] at hj hI
  obtain ⟨h1, h2, h3⟩ := joint_eval k bonds hk fill _ false hj hI stru
  refine ⟨h1.sorted, ?_, h3⟩
  rw [List.perm_iff_count]
  intro x
  have hv := (eval_core k.calc (lawful k bonds hk) 1 (le_refl _) _ hI stru).1
  simp only [Finset.range_one, Finset.sum_singleton] at hv
  have h2' := h2 (Or.inr rfl) x
  have hx : s.h.value x = ((k.spec bonds s.h.cfg stru).count x : Int) := by
    rw [← basicValue_count k bonds hk]
    exact congrFun hv x
  exact_mod_cast h2'.trans hx

/-- **C16**, instance: structures of atoms compared by `AtomicStructureAdapter::diff`, bonds and masks
given by the atoms of the two sites and their indices. -/
theorem atomic_blawful (k : Cls C (List Atom) R) (s : Sorter)
    (hdiff : ∀ a0 a1, k.diff a0 a1 = atomicDiff s false true a0 a1)
    (hcount : ∀ a, k.count a = a.length)
    (bonds : C → Nat → Nat → Option Atom → Option Atom → List (BData R))
    (use : C → Nat → Nat → Option Atom → Option Atom → Bool)
    (hgen : ∀ c a, GenSpec (k.gen c a) (fun i j => bonds c i j a[i]? a[j]?))
    (huse : ∀ c (a : List Atom) i j, k.use c a i j = use c i j a[i]? a[j]?)
    (hcustom : ∀ s c, (k.custom s c).2 = false → (k.custom s c).1 = c) :
    BLawful k (fun c (a : List Atom) i j => bonds c i j a[i]? a[j]?) where
  gen := hgen
  custom := hcustom
  diff := by
    intro a0 a1 _ hm
    rw [hdiff] at hm
    obtain ⟨v0, v1, _, _⟩ := diff_sideBySide s false true a0 a1 (by intro h; cases h) hm
    have hr := fun i => diff_sideBySide_rest s false true a0 a1 (by intro h; cases h) hm i
    rw [hcount, hcount, hdiff]
    refine ⟨v0, v1, fun i => (hr i).1, ?_⟩
    intro c i j hi hj hip hjp
    obtain ⟨a, e0, e1⟩ := (hr i).2 ⟨hi, hip⟩
    obtain ⟨b, e2, e3⟩ := (hr j).2 ⟨hj, hjp⟩
    rw [huse, huse, e0, e1, e2, e3]
    exact ⟨rfl, rfl⟩

/-! ### C16: parallel jobs -/

/-- The part sent by job `i` of `n` after a full evaluation. -/
def jobPart (k : Cls C S R) (fill : Entry R) (c : C) (stru : S) (d : Data R) (i n : Int) :
    List (Entry R) × List (Entry R) :=
  getParallelData (finishValue fill (decide (n > 1)) (fullData k c i n stru d))

theorem merge_fold (fill : Entry R) (parts : List (List (Entry R) × List (Entry R))) (d : Data R) :
    (parts.foldl (executeParallelMerge fill) d).bonds = d.bonds ∧
    (parts.foldl (executeParallelMerge fill) d).pop.Perm (d.pop ++ parts.flatMap Prod.fst) ∧
    (parts.foldl (executeParallelMerge fill) d).add.Perm (d.add ++ parts.flatMap Prod.snd) := by
  induction parts generalizing d with
  | nil => simp
  | cons p parts ih =>
    obtain ⟨h1, h2, h3⟩ := ih (executeParallelMerge fill d p)
    rw [List.foldl_cons]
    refine ⟨h1, ?_, ?_⟩
    · refine h2.trans ?_
      rw [List.flatMap_cons, ← List.append_assoc]
      exact (bmerge_perm fill d.pop p.1).append_right _
    · refine h3.trans ?_
      rw [List.flatMap_cons, ← List.append_assoc]
      exact (bmerge_perm fill d.add p.2).append_right _

/-- **C16**, parallel: with two or more jobs that each evaluate the structure in full, merging their
parts in any order of arrival gives the sorted bonds of the serial evaluation.  The jobs' arrays `d i`
and the collecting calculator `d0` may hold anything before. -/
theorem parallel_bonds (k : Cls C S R) (bonds : C → S → Nat → Nat → List (BData R)) (hk : BLawful k bonds)
    (fill : Entry R) (c : C) (stru : S) (n : Nat) (hn : 2 ≤ n) (d : Nat → Data R) (d0 : Data R)
    (parts : List (List (Entry R) × List (Entry R)))
    (hp : parts.Perm ((List.range n).map fun i : Nat => jobPart k fill c stru (d i) (i : Int) (n : Int))) :
    Sorted (mergeAll fill d0 parts).bonds ∧
    (mergeAll fill d0 parts).bonds.Perm (k.spec bonds (k.custom stru c).1 stru) ∧
    (mergeAll fill d0 parts).value = (mergeAll fill d0 parts).bonds.map Entry.distance := by
  obtain ⟨m1, m2, m3⟩ := merge_fold fill parts (resetValue d0)
  have hb : (parts.foldl (executeParallelMerge fill) (resetValue d0)).bonds = [] := m1
  have hs : Sorted (parts.foldl (executeParallelMerge fill) (resetValue d0)).bonds := by
    rw [hb]; exact List.Pairwise.nil
  obtain ⟨f1, _, _, f4, f5⟩ := finish_serial fill _ hs
  refine ⟨f1, ?_, f4⟩
  have hpar : decide ((n : Int) > 1) = true := by
    rw [decide_eq_true_eq]; omega
  -- the parts
  have hpart : ∀ i : Nat, (jobPart k fill c stru (d i) (i : Int) (n : Int)).2.Perm
      (entries (k.pass (k.custom stru c).1) (basicTrace (k.rule (k.count stru) n)
        (k.gen (k.custom stru c).1 stru) true (k.use (k.custom stru c).1 stru) (k.count stru) (i : Int) n)) := by
    intro i
    unfold jobPart getParallelData finishValue fullData
    simp only [hpar, if_true]
    rw [fold_add _ _ (basic_scale _ _ _ _ _ _)]
    refine (bsort_perm _).trans ?_
    simp [resetValue]
  have hall : (parts.flatMap Prod.snd).Perm (k.spec bonds (k.custom stru c).1 stru) := by
    refine (hp.flatMap_right _).trans ?_
    rw [List.flatMap_map]
    refine (flatMap_perm _ _ _ fun i _ => hpart i).trans ?_
    refine List.Perm.trans ?_ (entries_spec k bonds hk (k.custom stru c).1 stru (k.rule (k.count stru) n) 0)
    have := parallel_basic_partition (k.rule (k.count stru) n)
        (k.gen (k.custom stru c).1 stru) true (k.use (k.custom stru c).1 stru) (k.count stru) n (by omega) 0
    have h2 := (this.filter fun t => k.pass (k.custom stru c).1 t.bond).map
      fun t => entryFrom t.i0 t.i1 t.bond
    refine List.Perm.trans (List.Perm.of_eq ?_) h2
    rw [List.filter_flatMap, List.map_flatMap]
    simp only [zero_add]
    rfl
  rw [List.perm_iff_count]
  intro e
  change (finishValue fill false _).bonds.count e = _
  rw [f5 e, hb, m3.count_eq, ← hall.count_eq]
  simp [resetValue]

/-! ### C16: what the code does not do -/

/-- **C16 is false of the code** for one job: after `setupParallelRun(0, 1)` and a full evaluation the
parallel data are empty, so the merged result has no bonds, whatever the structure. -/
theorem single_job_sends_nothing (k : Cls C S R) (fill : Entry R) (c : C) (stru : S) (d : Data R) (i : Int) :
    jobPart k fill c stru d i 1 = ([], []) := by
  unfold jobPart getParallelData finishValue
  simp

/-- **When the CHECK evaluator throws**: at every fast update of a BondCalculator that has bonds, right or wrong, and at no other time: it
compares the bonds before `finishValue`, which are the old bonds on one side and none on the other. -/
theorem check_throws_iff (k : Cls C S R) (s : BC C S R) (stru : S) :
    checkThrows k s stru = true ↔
      s.h.evtype = .check ∧ (exec (optProg k.calc s.h stru) s.h).used ≠ .basic ∧ s.d.bonds ≠ [] := by
  unfold checkThrows
  simp only [Bool.and_eq_true, decide_eq_true_eq, and_assoc]
  refine and_congr_right fun hev => and_congr_right fun hfast => ?_
  have h2 : (fullData k (exec (optProg k.calc s.h stru) s.h).cfg s.h.cpuindex s.h.ncpu stru
      (optData k s.h stru s.d)).bonds = [] := by
    unfold fullData
    simp only
    rw [fold_add _ _ (basic_scale _ _ _ _ _ _)]
    rfl
  have h1 : (optData k s.h stru s.d).bonds = s.d.bonds := by
    rw [exec_opt] at hfast
    unfold optFinal at hfast
    unfold optData
    cases hf : fastChoice k.calc s.h stru with
    | none =>
      rw [hf] at hfast
      exact absurd (by
        change (setStru k.calc stru (setUsed .basic s.h)).used = _
        unfold setStru clickPq; simp only; split <;> rfl) hfast
    | some p =>
      obtain ⟨s0, df⟩ := p
      rw [hf] at hfast
      simp only at hfast ⊢
      split
      · rename_i hge
        rw [if_pos hge] at hfast
        exact absurd (by
          change (setStru k.calc stru (setUsed .basic _)).used = _
          unfold setStru clickPq; simp only; split <;> rfl) hfast
      · rw [fold_pop _ _ (remove_scale _ _ _ _ _ _), fold_add _ _ (add_scale _ _ _ _ _ _)]
        rfl
  rw [h1, h2, List.map_nil, ne_eq, List.map_eq_nil_iff]

/-- **The CHECK evaluator never accepts a fast update of a BondCalculator that has bonds**. -/
theorem check_throws (k : Cls C S R) (s : BC C S R) (stru : S) (hev : s.h.evtype = .check)
    (hfast : (exec (optProg k.calc s.h stru) s.h).used ≠ .basic) (hb : s.d.bonds ≠ []) :
    checkThrows k s stru = true := (check_throws_iff k s stru).2 ⟨hev, hfast, hb⟩

end Spec

/-! ### C16: examples -/

/-- Bonds of atoms on a line, not longer than `c`. -/
def lineBonds (c : Rat) (i j : Nat) (a b : Option Atom) : List (BData Rat) :=
  match a, b with
  | some a, some b =>
    if i ≠ j ∧ a.x - b.x ≤ c ∧ b.x - a.x ≤ c then
      [⟨if a.x ≤ b.x then b.x - a.x else a.x - b.x, b.x - a.x, 0, 0⟩] else []
  | _, _ => []

/-- BondCalculator on atoms on a line; the configuration is the longest distance; the filter admits
bonds to the right only. -/
def exCls : Cls Rat (List Atom) Rat where
  hasPairMask _ := false
  rule := chopOuterRule
  count a := a.length
  gen c a i sel := sel.flatMap fun j => (lineBonds c i j a[i]? a[j]?).map fun b => (j, b)
  use _ _ _ _ := true
  pass _ b := decide (0 ≤ b.r0)
  custom _ c := (c, false)
  diff := atomicDiff exSorter false true

theorem exCls_lawful : BLawful exCls (fun c a i j => lineBonds c i j a[i]? a[j]?) :=
  atomic_blawful exCls exSorter (fun _ _ => rfl) (fun _ => rfl) lineBonds (fun _ _ _ _ _ => true)
    (fun _ _ _ _ => List.Perm.refl _) (fun _ _ _ _ => rfl) (fun _ _ _ => rfl)

def exFill : Entry Rat := ⟨0, 0, 0, 0, 0, 0⟩

/-- A history that ends with a fast update and meets the hypotheses of `bonds_history_partial`. -/
def exBOps : List (BOp Rat (List Atom)) := [.eval struA, .configure (fun _ => 2) true, .eval struB, .eval struA]

example : (∀ op ∈ exBOps, BAllowed op) ∧
    taintAfter exCls.calc (bcInit (R := Rat) 1 []).h false (exBOps.map BOp.op) = false := by
  refine ⟨?_, by decide +kernel⟩
  intro op h
  simp only [exBOps, List.mem_cons, List.not_mem_nil, or_false] at h
  rcases h with rfl | rfl | rfl | rfl <;> simp [BAllowed]

example : (bcEval exCls exFill (bcRun exCls exFill (bcInit 1 []) exBOps) struB).h.used = .optimized ∧
    (bcEval exCls exFill (bcRun exCls exFill (bcInit 1 []) exBOps) struB).d.value = [1, 2] ∧
    (bcRun exCls exFill (bcInit 1 []) exBOps).d.value = [1, 1, 1, 2, 2] := by decide +kernel

/-- **C16 is false of the code** for fast updates in parallel jobs: two jobs evaluate `struA` and then
`struB` (a fast update); the parts they send hold the changes only, so the merged bonds miss every
bond between unchanged atoms. -/
theorem parallel_fast_update_loses_bonds :
    let job : Int → BC Rat (List Atom) Rat := fun i =>
      bcEval exCls exFill (bcEval exCls exFill
        ⟨{ (bcInit (R := Rat) 2 ([] : List Atom)).h with cpuindex := i, ncpu := 2 }, (bcInit 2 ([] : List Atom)).d⟩
        struA) struB
    (mergeAll exFill (bcInit 2 ([] : List Atom)).d
      [getParallelData (job 0).d, getParallelData (job 1).d]).value = [] ∧
    ((exCls.spec (fun c a i j => lineBonds c i j a[i]? a[j]?) 2 struB).length = 2) := by decide +kernel

/-- The CHECK evaluator throws on the first fast update. -/
example : checkThrows exCls (bcRun exCls exFill (bcInit 2 []) [.setType .check, .eval struA]) struB = true := by
  decide +kernel

end Verif.BondCalc
