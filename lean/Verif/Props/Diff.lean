import Verif.Lemmas.Diff
import Verif.Props.Evaluator
import Mathlib.Analysis.Real.Sqrt
import Mathlib.Data.List.Perm.Basic
/-!
Properties of structure differences: C09 (side by side), C10 (sorted), and the end-to-end form of
C11 (fast update along the difference reported by `diff`).
-/
namespace Verif.Diff
open Verif.Eval (ValidSites)

/-- The exact integer test used in the model is the real test of the code,
`|pop0| < (1 - sqrt(0.5)) * N0`. -/
theorem allowsFast_iff_real (d : SD) (h : d.pop0.length ≤ d.n0) :
    d.allowsFast = true ↔ (d.pop0.length : ℝ) < (1 - Real.sqrt (1 / 2)) * (d.n0 : ℝ) := by
  unfold SD.allowsFast
  rw [decide_eq_true_eq]
  obtain ⟨r, hr⟩ : ∃ r, d.n0 = d.pop0.length + r := ⟨d.n0 - d.pop0.length, by omega⟩
  have e : d.n0 - d.pop0.length = r := by omega
  rw [e]
  have h1 : ((d.pop0.length : ℝ) < (1 - Real.sqrt (1 / 2)) * (d.n0 : ℝ)) ↔
      Real.sqrt (1 / 2) * (d.n0 : ℝ) < (r : ℝ) := by
    have : (d.n0 : ℝ) = d.pop0.length + r := by exact_mod_cast hr
    constructor
    · intro h; nlinarith
    · intro h; nlinarith
  rw [h1]
  have hs : Real.sqrt (1 / 2) * (d.n0 : ℝ) = Real.sqrt ((1 / 2) * ((d.n0 : ℝ) * d.n0)) := by
    rw [Real.sqrt_mul (by norm_num), Real.sqrt_mul_self (by positivity)]
  rcases Nat.eq_zero_or_pos r with h0 | h0
  · subst h0
    simp only [Nat.mul_zero, Nat.not_lt_zero, false_iff, not_lt, Nat.cast_zero]
    positivity
  · rw [hs, Real.sqrt_lt' (by exact_mod_cast h0)]
    constructor
    · intro h
      have : ((d.n0 * d.n0 : ℕ) : ℝ) < ((2 * (r * r) : ℕ) : ℝ) := by exact_mod_cast h
      push_cast at this
      nlinarith
    · intro h
      have : ((d.n0 * d.n0 : ℕ) : ℝ) < ((2 * (r * r) : ℕ) : ℝ) := by push_cast; nlinarith
      exact_mod_cast this

/-- Three atoms used in the examples. -/
def exAtom (t : String) (x : Rat) : Atom := ⟨t, x, 0, 0, 1, false, ⟨0, 0, 0, 0, 0, 0, 0, 0, 0⟩⟩

/-- A concrete sorter (insertion sort), to show that `SortSpec` can be met. -/
def exSorter : Sorter where
  byAtom l := l.insertionSort fun p q => q.1.lt p.1 = false
  byIndex l := l.insertionSort (· ≤ ·)

theorem exSorter_spec : SortSpec exSorter where
  atom_perm l := List.perm_insertionSort _ l
  atom_sorted l := by
    have : Std.Total (fun p q : AtomIndex => q.1.lt p.1 = false) := ⟨fun p q => by
      by_cases h : q.1.lt p.1 = false
      · exact Or.inl h
      · right
        by_contra h2
        have := lt_trans' _ _ _ (by simpa using h) (by simpa using h2 : p.1.lt q.1 = true)
        rw [lt_irrefl] at this; exact absurd this (by simp)⟩
    have : IsTrans AtomIndex (fun p q => q.1.lt p.1 = false) := ⟨fun p q r h1 h2 => by
      by_contra h
      have h3 : r.1.lt q.1 = true := lt_of_lt_of_not_lt _ _ _ (by simpa using h) h1
      rw [h2] at h3; exact absurd h3 (by simp)⟩
    exact List.pairwise_insertionSort _ l
  index_perm l := List.perm_insertionSort _ l
  index_sorted l := List.pairwise_insertionSort _ l

/-! ## Atom comparison -/

/-- The atom order used by `diff` is a strict total order whose equivalence is atom equality. -/
theorem atom_order (a b c : Atom) :
    (a.lt a = false) ∧ (a.lt b = true → b.lt c = true → a.lt c = true) ∧
    (a.lt b = true ∨ b.lt a = true ∨ a = b) ∧ (a.lt b = true → b.lt a = false) ∧
    (a.beq b = true ↔ a = b) := by
  refine ⟨lt_irrefl a, lt_trans' a b c, ?_, ?_, beq_iff a b⟩
  · by_cases h1 : a.lt b = true
    · exact Or.inl h1
    · by_cases h2 : b.lt a = true
      · exact Or.inr (Or.inl h2)
      · exact Or.inr (Or.inr (lt_tricho a b (by simpa using h1) (by simpa using h2)))
  · intro h
    cases h2 : b.lt a with
    | false => rfl
    | true => have := lt_trans' _ _ _ h h2; rw [lt_irrefl] at this; exact absurd this (by simp)

example : (exAtom "C" 1).lt (exAtom "C" 2) = true ∧ (exAtom "C" 3).lt (exAtom "O" 2) = true := by
  constructor <;> rfl

/-! ## C09 -/

/-- **C09**: when `diff` reports a side-by-side difference, `pop0` (`add1`) lists, strictly
increasing, exactly the sites of the first (second) structure whose atom is different from or
missing in the other structure.  `hsame`: one object has one list of atoms. -/
theorem diff_sideBySide (s : Sorter) (same castOk : Bool) (a0 a1 : List Atom)
    (hsame : same = true → a0 = a1)
    (hm : (atomicDiff s same castOk a0 a1).method = .sideBySide) :
    ValidSites a0.length (atomicDiff s same castOk a0 a1).pop0 ∧
    ValidSites a1.length (atomicDiff s same castOk a0 a1).add1 ∧
    (∀ k, k ∈ (atomicDiff s same castOk a0 a1).pop0 ↔ k < a0.length ∧ a0[k]? ≠ a1[k]?) ∧
    (∀ k, k ∈ (atomicDiff s same castOk a0 a1).add1 ↔ k < a1.length ∧ a0[k]? ≠ a1[k]?) := by
  unfold atomicDiff at hm ⊢
  simp only at hm ⊢
  by_cases h1 : same = true
  · have := hsame h1
    subst this
    simp only [h1, baseDiff, if_true]
    refine ⟨⟨by simp, by simp⟩, ⟨by simp, by simp⟩, by simp, by simp⟩
  · simp only [h1, baseDiff] at hm ⊢
    by_cases h2 : castOk = true
    · simp only [h2, Bool.not_true, Bool.false_eq_true, if_false] at hm ⊢
      split
      · simp only
        have m0 := fun k => sideLoop_mem0 a0 a1 0 k
        have m1 := fun k => sideLoop_mem1 a0 a1 0 k
        simp only [Nat.zero_le, true_and, Nat.sub_zero] at m0 m1
        exact ⟨⟨sideLoop_sorted0 _ _ _, fun i hi => ((m0 i).1 hi).1⟩,
          ⟨sideLoop_sorted1 _ _ _, fun i hi => ((m1 i).1 hi).1⟩, m0, m1⟩
      · rename_i hf
        rw [if_neg hf] at hm
        simp at hm
    · simp [h2] at hm

/-- **C09**, consequence: a site not listed is present in both structures with the same atom. -/
theorem diff_sideBySide_rest (s : Sorter) (same castOk : Bool) (a0 a1 : List Atom)
    (hsame : same = true → a0 = a1)
    (hm : (atomicDiff s same castOk a0 a1).method = .sideBySide) (k : Nat) :
    (k < a0.length ∧ k ∉ (atomicDiff s same castOk a0 a1).pop0 ↔
      k < a1.length ∧ k ∉ (atomicDiff s same castOk a0 a1).add1) ∧
    (k < a0.length ∧ k ∉ (atomicDiff s same castOk a0 a1).pop0 →
      ∃ a, a0[k]? = some a ∧ a1[k]? = some a) := by
  obtain ⟨_, _, h0, h1⟩ := diff_sideBySide s same castOk a0 a1 hsame hm
  rw [h0, h1]
  have aux : a0[k]? = a1[k]? → (k < a0.length ↔ k < a1.length) := by
    intro h
    have h' : a0[k]? = none ↔ a1[k]? = none := by rw [h]
    rw [List.getElem?_eq_none_iff, List.getElem?_eq_none_iff] at h'
    omega
  constructor
  · constructor
    · rintro ⟨h2, h3⟩
      have e : a0[k]? = a1[k]? := by by_contra hne; exact h3 ⟨h2, hne⟩
      exact ⟨(aux e).1 h2, fun h => h.2 e⟩
    · rintro ⟨h2, h3⟩
      have e : a0[k]? = a1[k]? := by by_contra hne; exact h3 ⟨h2, hne⟩
      exact ⟨(aux e).2 h2, fun h => h.2 e⟩
  · rintro ⟨h2, h3⟩
    have e : a0[k]? = a1[k]? := by by_contra hne; exact h3 ⟨h2, hne⟩
    exact ⟨a0[k], List.getElem?_eq_getElem h2, by rw [← e]; exact List.getElem?_eq_getElem h2⟩

/-- The side-by-side method is reached: one of four atoms moved, and a surplus atom added. -/
example : atomicDiff exSorter false true
    [exAtom "C" 0, exAtom "C" 1, exAtom "O" 2, exAtom "O" 3]
    [exAtom "C" 0, exAtom "C" 5, exAtom "O" 2, exAtom "O" 3, exAtom "O" 4]
    = ⟨4, 5, [1], [1, 4], .sideBySide⟩ := by rfl

/-- **C09**: structures with equal atoms have an empty difference. -/
theorem diff_equal (s : Sorter) (hs : SortSpec s) (same castOk : Bool) (hc : same = true ∨ castOk = true)
    (a : List Atom) :
    (atomicDiff s same castOk a a).pop0 = [] ∧ (atomicDiff s same castOk a a).add1 = [] := by
  unfold atomicDiff
  simp only
  by_cases h1 : same = true
  · simp [h1, baseDiff]
  · have h2 : castOk = true := by rcases hc with h | h; exact absurd h h1; exact h
    simp only [h1, h2, baseDiff, if_false, Bool.not_true, Bool.false_eq_true]
    have e0 : (sideLoop 0 a a).1 = [] := by
      rw [List.eq_nil_iff_forall_not_mem]; intro k hk
      exact ((sideLoop_mem0 a a 0 k).1 hk).2.2 rfl
    have e1 : (sideLoop 0 a a).2 = [] := by
      rw [List.eq_nil_iff_forall_not_mem]; intro k hk
      exact ((sideLoop_mem1 a a 0 k).1 hk).2.2 rfl
    split
    · exact ⟨e0, e1⟩
    · rename_i hf
      have hn : a.length = 0 := by
        by_contra hne
        apply hf
        simp only [SD.allowsFast, e0, List.length_nil, Nat.sub_zero, decide_eq_true_eq]
        have : 0 < a.length := by omega
        nlinarith
      have : a = [] := List.length_eq_zero_iff.1 hn
      subst this
      have h0 : s.byAtom (index0 []) = [] := List.Perm.eq_nil (hs.atom_perm _)
      have h0' : s.byAtom (index1 []) = [] := List.Perm.eq_nil (hs.atom_perm _)
      have h3 : s.byIndex [] = [] := List.Perm.eq_nil (hs.index_perm _)
      simp [h0, h0', symDiff, splitDiff, h3]

/-! ## C10 -/

theorem split_range (n : Nat) (M O : List Nat) (h : (M ++ O).Perm (List.range n)) :
    ((List.range n).filter fun k => !decide (k ∈ O)).Perm M ∧ O.Nodup ∧ ∀ i ∈ O, i < n := by
  have hnd : (M ++ O).Nodup := h.nodup_iff.2 List.nodup_range
  have hnd' := List.nodup_append.1 hnd
  refine ⟨?_, hnd'.2.1, fun i hi => List.mem_range.1 (h.subset (List.mem_append_right _ hi))⟩
  have h2 := (h.symm.filter fun k => !decide (k ∈ O))
  rw [List.filter_append] at h2
  have e1 : M.filter (fun k => !decide (k ∈ O)) = M := by
    rw [List.filter_eq_self]
    intro a ha
    have : a ∉ O := fun ho => hnd'.2.2 a ha a ho rfl
    simp [this]
  have e2 : O.filter (fun k => !decide (k ∈ O)) = [] := by
    rw [List.filter_eq_nil_iff]
    intro a ha; simp [ha]
  rw [e1, e2, List.append_nil] at h2
  exact h2

/-- Decoding of indices gives back positions and atoms. -/
theorem decode_rest (a : List Atom) (dec : Int → Nat) (L m o : List AtomIndex)
    (hL : (L.map fun p => (p.1, dec p.2)).Perm a.zipIdx) (hp : L.Perm (m ++ o)) (P : List Nat)
    (hP : P.Perm (o.map fun p => dec p.2)) :
    (((List.range a.length).filter fun k => !decide (k ∈ P)).map fun k => a[k]?).Perm
        (m.map fun p => some p.1) ∧
      P.Nodup ∧ (∀ i ∈ P, i < a.length) ∧ ∀ i ∈ P, ∃ p ∈ o, a[i]? = some p.1 := by
  have hr : ((m.map fun p => dec p.2) ++ (o.map fun p => dec p.2)).Perm (List.range a.length) := by
    rw [← List.map_append]
    have h1 := (hp.symm.map fun p => dec p.2)
    have h2 := hL.map Prod.snd
    rw [List.map_map] at h2
    have e : (a.zipIdx.map Prod.snd) = List.range a.length := by
      rw [List.zipIdx_map_snd, List.range_eq_range']
    rw [e] at h2
    exact h1.trans h2
  have hget : ∀ p ∈ L, a[dec p.2]? = some p.1 := by
    intro p hpL
    have : (p.1, dec p.2) ∈ a.zipIdx := hL.subset (List.mem_map.2 ⟨p, hpL, rfl⟩)
    exact List.mem_zipIdx_iff_getElem?.1 this
  have hr' : ((m.map fun p => dec p.2) ++ P).Perm (List.range a.length) :=
    (List.Perm.append_left _ hP).trans hr
  obtain ⟨h1, h2, h3⟩ := split_range a.length _ P hr'
  refine ⟨?_, h2, h3, ?_⟩
  · refine (h1.map _).trans (List.Perm.of_eq ?_)
    rw [List.map_map]
    apply List.map_congr_left
    intro p hpm
    exact hget p (hp.symm.subset (List.mem_append_left _ hpm))
  · intro i hi
    obtain ⟨p, hpo, rfl⟩ := List.mem_map.1 (hP.subset hi)
    exact ⟨p, hpo, hget p (hp.symm.subset (List.mem_append_right _ hpo))⟩

theorem filterMap_all {α β : Type} (l : List α) (f : α → Option β) (g : α → β)
    (h : ∀ x ∈ l, f x = some (g x)) : l.filterMap f = l.map g := by
  induction l with
  | nil => rfl
  | cons a l ih =>
    rw [List.filterMap_cons, h a (by simp)]
    simp [ih fun x hx => h x (by simp [hx])]

theorem filterMap_none {α β : Type} (l : List α) (f : α → Option β)
    (h : ∀ x ∈ l, f x = none) : l.filterMap f = [] := by
  rw [List.filterMap_eq_nil_iff]; exact h

theorem sorted_of_le_nodup (l : List Nat) (h : l.Pairwise (· ≤ ·)) (hn : l.Nodup) :
    l.Pairwise (· < ·) := by
  have := h.and hn
  exact this.imp fun h => lt_of_le_of_ne h.1 h.2

/-- The core of the sorted comparison. -/
theorem sorted_core (s : Sorter) (hs : SortSpec s) (a0 a1 : List Atom) :
    let p := splitDiff (symDiff (s.byAtom (index0 a0)) (s.byAtom (index1 a1)))
    ValidSites a0.length (s.byIndex p.1) ∧ ValidSites a1.length (s.byIndex p.2) ∧
    (((List.range a0.length).filter fun k => !decide (k ∈ s.byIndex p.1)).map fun k => a0[k]?).Perm
      (((List.range a1.length).filter fun k => !decide (k ∈ s.byIndex p.2)).map fun k => a1[k]?) ∧
    ∀ i ∈ s.byIndex p.1, ∀ j ∈ s.byIndex p.2, a0[i]? ≠ a1[j]? := by
  obtain ⟨m0, m1, o0, o1, hp0, hp1, hp2, hme, hd⟩ :=
    symDiff_spec _ _ (hs.atom_sorted (index0 a0)) (hs.atom_sorted (index1 a1))
  intro p
  have hidx0 : ∀ q ∈ o0, q.2 ≥ 0 := by
    intro q hq
    have h1 : q ∈ index0 a0 := (hs.atom_perm _).subset (hp0.symm.subset (List.mem_append_right _ hq))
    obtain ⟨r, _, rfl⟩ := List.mem_map.1 h1
    simp
  have hidx1 : ∀ q ∈ o1, ¬ q.2 ≥ 0 := by
    intro q hq
    have h1 : q ∈ index1 a1 := (hs.atom_perm _).subset (hp1.symm.subset (List.mem_append_right _ hq))
    obtain ⟨r, _, rfl⟩ := List.mem_map.1 h1
    simp; omega
  have hpop : (s.byIndex p.1).Perm (o0.map fun q => (fun z : Int => z.toNat) q.2) := by
    refine (hs.index_perm _).trans ?_
    refine (hp2.filterMap _).trans (List.Perm.of_eq ?_)
    rw [List.filterMap_append, filterMap_all o0 _ (fun q => q.2.toNat), filterMap_none o1]
    · simp
    · intro q hq; rw [if_neg (hidx1 q hq)]
    · intro q hq; rw [if_pos (hidx0 q hq)]
  have hadd : (s.byIndex p.2).Perm (o1.map fun q => (fun z : Int => (-1 * z - 1).toNat) q.2) := by
    refine (hs.index_perm _).trans ?_
    refine (hp2.filterMap _).trans (List.Perm.of_eq ?_)
    rw [List.filterMap_append, filterMap_none o0, filterMap_all o1 _ (fun q => (-1 * q.2 - 1).toNat)]
    · simp
    · intro q hq; rw [if_neg (hidx1 q hq)]
    · intro q hq; rw [if_pos (hidx0 q hq)]
  have hL0 : ((s.byAtom (index0 a0)).map fun q => (q.1, (fun z : Int => z.toNat) q.2)).Perm a0.zipIdx := by
    refine ((hs.atom_perm _).map _).trans (List.Perm.of_eq ?_)
    unfold index0
    rw [List.map_map]
    conv_rhs => rw [← List.map_id a0.zipIdx]
    apply List.map_congr_left
    intro q _; simp
  have hL1 : ((s.byAtom (index1 a1)).map fun q => (q.1, (fun z : Int => (-1 * z - 1).toNat) q.2)).Perm a1.zipIdx := by
    refine ((hs.atom_perm _).map _).trans (List.Perm.of_eq ?_)
    unfold index1
    rw [List.map_map]
    conv_rhs => rw [← List.map_id a1.zipIdx]
    apply List.map_congr_left
    intro q _
    have : (-1 * (-1 - (q.2 : Int)) - 1).toNat = q.2 := by omega
    simp only [Function.comp, this, id]
  obtain ⟨r0, n0, b0, g0⟩ := decode_rest a0 (fun z : Int => z.toNat) _ m0 o0 hL0 hp0 _ hpop
  obtain ⟨r1, n1, b1, g1⟩ := decode_rest a1 (fun z : Int => (-1 * z - 1).toNat) _ m1 o1 hL1 hp1 _ hadd
  refine ⟨⟨sorted_of_le_nodup _ (hs.index_sorted _) n0, b0⟩,
    ⟨sorted_of_le_nodup _ (hs.index_sorted _) n1, b1⟩, ?_, ?_⟩
  · have e : (m0.map fun q => some q.1) = (m1.map fun q => some q.1) := by
      have h : ∀ l : List AtomIndex, (l.map fun q => some q.1) = (l.map Prod.fst).map some := by
        intro l; rw [List.map_map]; rfl
      rw [h, h, hme]
    exact r0.trans ((List.Perm.of_eq e).trans r1.symm)
  · intro i hi j hj
    obtain ⟨q, hq, e1⟩ := g0 i hi
    obtain ⟨q', hq', e2⟩ := g1 j hj
    rw [e1, e2]
    intro e
    exact hd q hq q' hq' (Option.some.inj e)

/-- **C10**: when `diff` reports a sorted difference, `pop0` and `add1` are strictly increasing
valid indices, the atoms left in the two structures are the same multiset, and no atom value is
both removed and added. -/
theorem diff_sorted (s : Sorter) (hs : SortSpec s) (same castOk : Bool) (a0 a1 : List Atom)
    (hm : (atomicDiff s same castOk a0 a1).method = .sorted) :
    ValidSites a0.length (atomicDiff s same castOk a0 a1).pop0 ∧
    ValidSites a1.length (atomicDiff s same castOk a0 a1).add1 ∧
    (((List.range a0.length).filter fun k =>
        !decide (k ∈ (atomicDiff s same castOk a0 a1).pop0)).map fun k => a0[k]?).Perm
      (((List.range a1.length).filter fun k =>
        !decide (k ∈ (atomicDiff s same castOk a0 a1).add1)).map fun k => a1[k]?) ∧
    ∀ i ∈ (atomicDiff s same castOk a0 a1).pop0, ∀ j ∈ (atomicDiff s same castOk a0 a1).add1,
      a0[i]? ≠ a1[j]? := by
  unfold atomicDiff at hm ⊢
  simp only at hm ⊢
  by_cases h1 : same = true
  · simp [h1, baseDiff] at hm
  · simp only [h1, baseDiff] at hm ⊢
    by_cases h2 : castOk = true
    · simp only [h2, Bool.not_true, Bool.false_eq_true, if_false] at hm ⊢
      split
      · rename_i hf
        rw [if_pos hf] at hm
        simp at hm
      · exact sorted_core s hs a0 a1
    · simp [h2] at hm

/-- The sorted method is reached: a permuted structure with one atom exchanged. -/
example : atomicDiff exSorter false true
    [exAtom "C" 0, exAtom "C" 1, exAtom "O" 2, exAtom "O" 3]
    [exAtom "O" 3, exAtom "O" 2, exAtom "C" 0, exAtom "N" 1]
    = ⟨4, 4, [1], [3], .sorted⟩ := by decide +kernel

/-- When no comparison is possible every site is listed, so a fast update is never allowed. -/
theorem diff_none (s : Sorter) (same castOk : Bool) (a0 a1 : List Atom)
    (hm : (atomicDiff s same castOk a0 a1).method = .none) :
    (atomicDiff s same castOk a0 a1).allowsFast = false := by
  unfold atomicDiff at hm ⊢
  simp only at hm ⊢
  by_cases h1 : same = true
  · simp [h1, baseDiff] at hm
  · simp only [h1, baseDiff] at hm ⊢
    by_cases h2 : castOk = true
    · simp only [h2, Bool.not_true, Bool.false_eq_true, if_false] at hm
      split at hm <;> simp at hm
    · simp [h2, SD.allowsFast]

/-- Different lattices or symmetries never allow a fast update; otherwise the periodic and crystal
differences are the atomic one. -/
theorem diff_crystal (s : Sorter) (castOk sameSym sameLat : Bool) (a0 a1 : List Atom) :
    (sameSym = true → sameLat = true →
      crystalDiff s false castOk sameSym sameLat a0 a1 = atomicDiff s false castOk a0 a1) ∧
    (sameSym = false ∨ sameLat = false →
      (crystalDiff s false castOk sameSym sameLat a0 a1).allowsFast = false) := by
  constructor
  · rintro rfl rfl
    cases castOk <;> simp [crystalDiff, periodicDiff, atomicDiff]
  · rintro (rfl | rfl)
    · cases castOk <;> simp [crystalDiff, baseDiff, SD.allowsFast]
    · cases castOk <;> cases sameSym <;> simp [crystalDiff, periodicDiff, baseDiff, SD.allowsFast]

/-! ## C11 end to end -/

open Verif.Eval

variable {B G : Type} [AddCommGroup G]

/-- **C11**: along the difference reported by `diff` (side by side, or sorted when contributions do
not depend on site indices) the fast update turns the value of the old structure into the value of
the new one.

`bonds i j a b` are the bonds between site `i` with atom `a` and site `j` with atom `b`, `con` the
unscaled contribution of one of them, `use` the mask.  `hidx` is the condition under which the code
accepts a sorted difference: no dependence on site indices (except whether the sites coincide). -/
theorem fast_update_of_diff (s : Sorter) (hs : SortSpec s) (same castOk : Bool) (a0 a1 : List Atom)
    (hsame : same = true → a0 = a1)
    (gen0 gen1 : Gen B)
    (bonds : Nat → Nat → Option Atom → Option Atom → List B)
    (con : Nat → Nat → Option Atom → Option Atom → B → G)
    (use : Nat → Nat → Option Atom → Option Atom → Bool)
    (hg0 : GenSpec gen0 (fun i j => bonds i j a0[i]? a0[j]?))
    (hg1 : GenSpec gen1 (fun i j => bonds i j a1[i]? a1[j]?))
    (full : Bool)
    (hsym : full = false → ∀ i j a b, use i j a b = use j i b a ∧
      ((bonds i j a b).map (con i j a b)).sum = ((bonds j i b a).map (con j i b a)).sum)
    (hfast : (atomicDiff s same castOk a0 a1).allowsFast = true)
    (hidx : (atomicDiff s same castOk a0 a1).method ≠ .sideBySide →
      ∀ i j i' j' a b, (i = j ↔ i' = j') → use i j a b = use i' j' a b ∧
        bonds i j a b = bonds i' j' a b ∧ con i j a b = con i' j' a b)
    (rule0 rule1 : Bool) :
    let u0 := fun i j => use i j a0[i]? a0[j]?
    let u1 := fun i j => use i j a1[i]? a1[j]?
    let f0 := fun i j b => con i j a0[i]? a0[j]? b
    let f1 := fun i j b => con i j a1[i]? a1[j]? b
    let d := atomicDiff s same castOk a0 a1
    traceSum f0 (basicTrace rule0 gen0 full u0 a0.length 0 1)
      + traceSum f0 (fastTrace gen0 gen1 full u0 u1 a0.length a1.length d.pop0 d.add1 0 1).1
      + traceSum f1 (fastTrace gen0 gen1 full u0 u1 a0.length a1.length d.pop0 d.add1 0 1).2
      = traceSum f1 (basicTrace rule1 gen1 full u1 a1.length 0 1) := by
  intro u0 u1 f0 f1 d
  cases hm : d.method with
  | none => rw [diff_none s same castOk a0 a1 hm] at hfast; exact absurd hfast (by simp)
  | sideBySide =>
    obtain ⟨v0, v1, _, _⟩ := diff_sideBySide s same castOk a0 a1 hsame hm
    have hr := fun k => diff_sideBySide_rest s same castOk a0 a1 hsame hm k
    apply fast_update_sideBySide f0 f1 gen0 gen1 _ _ hg0 hg1 full u0 u1 _ _ _ _ _ _ v0 v1
      (fun k => (hr k).1)
    · intro i j hi hj hip hjp
      obtain ⟨a, e0, e1⟩ := (hr i).2 ⟨hi, hip⟩
      obtain ⟨b, e2, e3⟩ := (hr j).2 ⟨hj, hjp⟩
      simp only [u0, u1, f0, f1, e0, e1, e2, e3, true_and]
    · intro hf i j; exact hsym hf i j _ _
    · intro hf i j; exact hsym hf i j _ _
  | sorted =>
    obtain ⟨v0, v1, hrest, _⟩ := diff_sorted s hs same castOk a0 a1 hm
    have hx := hidx (by change d.method ≠ _; rw [hm]; simp)
    let S : Option Atom → G := fun x =>
      if use 0 0 x x = true then ((bonds 0 0 x x).map (con 0 0 x x)).sum else 0
    let K : Option Atom → Option Atom → G := fun x y =>
      if use 0 1 x y = true then ((bonds 0 1 x y).map (con 0 1 x y)).sum else 0
    have hK : ∀ (a : List Atom) (i j : Nat),
        (if use i j a[i]? a[j]? = true then
          ((bonds i j a[i]? a[j]?).map fun b => con i j a[i]? a[j]? b).sum else 0)
        = if i = j then S a[i]? else K a[i]? a[j]? := by
      intro a i j
      simp only [K, S]
      by_cases e : i = j
      · subst e
        obtain ⟨h1, h2, h3⟩ := hx i i 0 0 a[i]? a[i]? (by simp)
        simp only [if_true, h1, h2, h3]
      · obtain ⟨h1, h2, h3⟩ := hx i j 0 1 a[i]? a[j]? (by simp [e])
        simp only [e, if_false, h1, h2, h3]
    apply fast_update_sorted f0 f1 gen0 gen1 _ _ hg0 hg1 full u0 u1 _ _ _ _ _ _ v0 v1
      (fun k => a0[k]?) (fun k => a1[k]?) K S (fun i j _ _ => hK a0 i j) (fun i j _ _ => hK a1 i j) hrest
    · intro hf i j; exact hsym hf i j _ _
    · intro hf i j; exact hsym hf i j _ _

/-- Unit contributions for pairs of different sites meet the hypotheses (`bonds` one per ordered
pair), with the sorted example above. -/
example : (atomicDiff exSorter false true
    [exAtom "C" 0, exAtom "C" 1, exAtom "O" 2, exAtom "O" 3]
    [exAtom "O" 3, exAtom "O" 2, exAtom "C" 0, exAtom "N" 1]).allowsFast = true := by decide +kernel
example : ∀ i j i' j' : Nat, (i = j ↔ i' = j') →
    (if i = j then ([] : List Unit) else [()]) = (if i' = j' then [] else [()]) := by
  intro i j i' j' h; simp only [h]

end Verif.Diff
