import Verif.Model.BondCalc
import Verif.Props.History
import Mathlib.Data.Prod.Lex
import Mathlib.Order.RelClasses
set_option linter.unusedSectionVars false
/-!
Lemmas on the list handling of BondCalculator.
-/
namespace Verif.BondCalc
open Verif.Eval Verif.Diff Verif.History

section Order
variable {R : Type} [LinearOrder R]

/-- Sort key of an entry. -/
def key (e : Entry R) : R ×ₗ Nat ×ₗ Nat ×ₗ R ×ₗ R ×ₗ R :=
  toLex (e.distance, toLex (e.site0, toLex (e.site1, toLex (e.direction0, toLex (e.direction1, e.direction2)))))

theorem key_inj {a b : Entry R} (h : key a = key b) : a = b := by
  unfold key at h
  simp only [EmbeddingLike.apply_eq_iff_eq, Prod.mk.injEq] at h
  obtain ⟨h1, h2, h3, h4, h5, h6⟩ := h
  exact Entry.ext h1 h2 h3 h4 h5 h6

theorem compare_iff (a b : Entry R) : compare a b = true ↔ key a < key b := by
  unfold compare key
  simp only [Prod.Lex.toLex_lt_toLex]
  rcases lt_trichotomy a.distance b.distance with h | h | h
  · simp [h]
  · rcases lt_trichotomy a.site0 b.site0 with h1 | h1 | h1
    · simp [h, h1]
    · rcases lt_trichotomy a.site1 b.site1 with h2 | h2 | h2
      · simp [h, h1, h2]
      · rcases lt_trichotomy a.direction0 b.direction0 with h3 | h3 | h3
        · simp [h, h1, h2, h3]
        · rcases lt_trichotomy a.direction1 b.direction1 with h4 | h4 | h4
          · simp [h, h1, h2, h3, h4]
          · simp [h, h1, h2, h3, h4]
          · simp [h, h1, h2, h3, h4, h4.not_gt, h4.ne']
        · simp [h, h1, h2, h3, h3.not_gt, h3.ne']
      · simp [h, h1, h2, h2.not_gt, h2.ne']
    · simp [h, h1, h1.not_gt, h1.ne']
  · simp [h, h.not_gt, h.ne']

theorem compare_false_iff (a b : Entry R) : compare a b = false ↔ key b ≤ key a := by
  rw [← not_lt, ← compare_iff, Bool.not_eq_true]

/-- Sorted by `compare`. -/
def Sorted (l : List (Entry R)) : Prop := l.Pairwise fun a b => compare b a = false

theorem sorted_iff (l : List (Entry R)) : Sorted l ↔ l.Pairwise fun a b => key a ≤ key b := by
  unfold Sorted
  simp only [compare_false_iff]

theorem bsort_perm (l : List (Entry R)) : (bsort l).Perm l := List.perm_insertionSort _ l

theorem bsort_sorted (l : List (Entry R)) : Sorted (bsort l) := by
  unfold bsort Sorted
  have : Std.Total (fun a b : Entry R => compare b a = false) :=
    ⟨fun a b => by simp only [compare_false_iff]; exact le_total _ _⟩
  have : IsTrans (Entry R) (fun a b : Entry R => compare b a = false) :=
    ⟨fun a b c => by simp only [compare_false_iff]; exact le_trans⟩
  exact List.pairwise_insertionSort _ l

/-- Two sorted lists with the same entries are equal. -/
theorem sorted_unique {l m : List (Entry R)} (hl : Sorted l) (hm : Sorted m) (h : l.Perm m) : l = m := by
  rw [sorted_iff] at hl hm
  exact List.Perm.eq_of_pairwise (fun a b _ _ h1 h2 => key_inj (le_antisymm h1 h2)) hl hm h

end Order

section Merge
variable {R : Type} [LinearOrder R]

theorem take_succ_get {α : Type} (l : List α) (i : Nat) (x : α) (h : l[i]? = some x) :
    l.take (i + 1) = l.take i ++ [x] := by
  rw [List.take_add_one, h]; rfl

theorem drop_set_self {α : Type} (l : List α) (n : Nat) (x : α) (h : n < l.length) :
    (l.set n x).drop n = x :: l.drop (n + 1) := by
  rw [List.drop_eq_getElem_cons (by simpa using h)]
  congr 1
  · simp
  · rw [List.drop_set_of_lt (by omega)]

theorem take_set_ge {α : Type} (l : List α) (i n : Nat) (x : α) (h : i ≤ n) :
    (l.set n x).take i = l.take i := List.take_set_of_le h

theorem sorted_append_max (M : List (Entry R)) (x : Entry R) (hM : Sorted M)
    (hx : ∀ a ∈ M, compare x a = false) : Sorted (M ++ [x]) := by
  unfold Sorted at *
  rw [List.pairwise_append]
  refine ⟨hM, List.pairwise_singleton _ _, ?_⟩
  intro a ha b hb
  rw [List.mem_singleton] at hb
  subst hb
  exact hx a ha

theorem sorted_last {l : List (Entry R)} {x : Entry R} (h : Sorted (l ++ [x])) :
    ∀ a ∈ l, compare x a = false := by
  unfold Sorted at h
  rw [List.pairwise_append] at h
  exact fun a ha => h.2.2 a ha x (by simp)

theorem sorted_init {l : List (Entry R)} {x : Entry R} (h : Sorted (l ++ [x])) : Sorted l := by
  unfold Sorted at *
  rw [List.pairwise_append] at h
  exact h.1

theorem cmp_trans {a b c : Entry R} (h1 : compare b a = false) (h2 : compare c b = false) :
    compare c a = false := by
  rw [compare_false_iff] at *
  exact le_trans h1 h2

theorem cmp_of_lt {a b : Entry R} (h1 : compare a b = true) : compare b a = false := by
  rw [compare_false_iff]; rw [compare_iff] at h1
  exact h1.le

theorem bmergeLoop_spec (src : List (Entry R)) (i j : Nat) (buf : List (Entry R)) :
    ∀ (T : List (Entry R)), j ≤ src.length → buf.drop (i + j) = T → buf.length = i + j + T.length →
    ∃ M, bmergeLoop src i j buf = M ++ T ∧ M.Perm (buf.take i ++ src.take j) ∧
      (Sorted (buf.take i) → Sorted (src.take j) → Sorted M) := by
  fun_induction bmergeLoop src i j buf with
  | case1 i j buf b s hs hb hc ih =>
    intro T hj hT hl
    obtain ⟨M, h1, h2, h3⟩ := ih (s :: T) (by omega)
      (by rw [drop_set_self _ _ _ (by omega), ← hT]; rfl) (by simp; omega)
    rw [take_set_ge _ _ _ _ (by omega)] at h2 h3
    refine ⟨M ++ [s], by rw [h1]; simp, ?_, ?_⟩
    · rw [take_succ_get src j s hs, ← List.append_assoc]
      exact h2.append_right _
    · intro g1 g2
      rw [take_succ_get src j s hs] at g2
      apply sorted_append_max _ _ (h3 g1 (sorted_init g2))
      intro a ha
      rcases List.mem_append.1 (h2.subset ha) with h | h
      · rw [take_succ_get buf i b hb] at g1 h
        have hbs : compare s b = false := cmp_of_lt hc
        rcases List.mem_append.1 h with h' | h'
        · exact cmp_trans (sorted_last g1 a h') hbs
        · rw [List.mem_singleton] at h'; subst h'; exact hbs
      · exact sorted_last g2 a h
  | case2 i j buf b s hs hb hc ih =>
    intro T hj hT hl
    obtain ⟨M, h1, h2, h3⟩ := ih (b :: T) hj
      (by
        have e : i + (j + 1) = i + 1 + j := by omega
        rw [e, drop_set_self _ _ _ (by omega), ← hT]; congr 2) (by simp; omega)
    rw [take_set_ge _ _ _ _ (by omega)] at h2 h3
    refine ⟨M ++ [b], by rw [h1]; simp, ?_, ?_⟩
    · rw [take_succ_get buf i b hb]
      refine (h2.append_right [b]).trans ?_
      rw [List.append_assoc, List.append_assoc]
      exact List.Perm.append_left _ List.perm_append_comm
    · intro g1 g2
      rw [take_succ_get buf i b hb] at g1
      apply sorted_append_max _ _ (h3 (sorted_init g1) g2)
      intro a ha
      have hc' : compare b s = false := by
        simpa [reverseCompare] using hc
      rcases List.mem_append.1 (h2.subset ha) with h | h
      · exact sorted_last g1 a h
      · rw [take_succ_get src j s hs] at g2 h
        rcases List.mem_append.1 h with h' | h'
        · exact cmp_trans (sorted_last g2 a h') hc'
        · rw [List.mem_singleton] at h'; subst h'; exact hc'
  | case3 i j buf hx =>
    intro T hj hT hl
    exact (hx buf[i] src[j] (by simp) (by simp)).elim
  | case4 i buf b hb ih =>
    intro T hj hT hl
    obtain ⟨M, h1, h2, h3⟩ := ih (b :: T) hj
      (by rw [Nat.add_zero, drop_set_self _ _ _ (by omega), ← hT]) (by simp; omega)
    rw [take_set_ge _ _ _ _ (by omega)] at h2 h3
    refine ⟨M ++ [b], by rw [h1]; simp, ?_, ?_⟩
    · rw [take_succ_get buf i b hb]
      simp only [List.take_zero, List.append_nil] at h2 ⊢
      exact h2.append_right _
    · intro g1 g2
      rw [take_succ_get buf i b hb] at g1
      apply sorted_append_max _ _ (h3 (sorted_init g1) g2)
      intro a ha
      have := h2.subset ha
      simp only [List.take_zero, List.append_nil] at this
      exact sorted_last g1 a this
  | case5 i buf hx =>
    intro T hj hT hl
    rw [List.getElem?_eq_none_iff] at hx
    omega
  | case6 j buf s hs ih =>
    intro T hj hT hl
    obtain ⟨M, h1, h2, h3⟩ := ih (s :: T) (by omega)
      (by rw [Nat.zero_add, drop_set_self _ _ _ (by omega), ← hT]; congr 2; omega) (by simp; omega)
    rw [take_set_ge _ _ _ _ (by omega)] at h2 h3
    refine ⟨M ++ [s], by rw [h1]; simp, ?_, ?_⟩
    · rw [take_succ_get src j s hs]
      simp only [List.take_zero, List.nil_append] at h2 ⊢
      exact h2.append_right _
    · intro g1 g2
      rw [take_succ_get src j s hs] at g2
      apply sorted_append_max _ _ (h3 g1 (sorted_init g2))
      intro a ha
      have := h2.subset ha
      simp only [List.take_zero, List.nil_append] at this
      exact sorted_last g2 a this
  | case7 j buf hx =>
    intro T hj hT hl
    rw [List.getElem?_eq_none_iff] at hx
    omega
  | case8 buf =>
    intro T hj hT hl
    refine ⟨[], by simpa using hT, by simp, fun _ _ => List.Pairwise.nil⟩

theorem bmerge_perm (fill : Entry R) (dst src : List (Entry R)) :
    (bmerge fill dst src).Perm (dst ++ src) := by
  obtain ⟨M, h1, h2, _⟩ := bmergeLoop_spec src dst.length src.length
    (dst ++ List.replicate src.length fill) [] (le_refl _) (by simp) (by simp)
  unfold bmerge
  rw [h1, List.append_nil]
  simpa using h2

theorem bmerge_sorted (fill : Entry R) (dst src : List (Entry R)) (h1 : Sorted dst) (h2 : Sorted src) :
    Sorted (bmerge fill dst src) := by
  obtain ⟨M, e, _, h3⟩ := bmergeLoop_spec src dst.length src.length
    (dst ++ List.replicate src.length fill) [] (le_refl _) (by simp) (by simp)
  unfold bmerge
  rw [e, List.append_nil]
  apply h3
  · simpa using h1
  · simpa using h2

theorem setDifference_sublist (l m : List (Entry R)) : (setDifference l m).Sublist l := by
  fun_induction setDifference l m with
  | case1 => exact List.Sublist.refl _
  | case2 => exact List.Sublist.refl _
  | case3 a l b m h ih => exact ih.cons_cons a
  | case4 a l b m h1 h2 ih => exact ih
  | case5 a l b m h1 h2 ih => exact ih.cons a

theorem setDifference_sorted (l m : List (Entry R)) (h : Sorted l) : Sorted (setDifference l m) :=
  List.Pairwise.sublist (setDifference_sublist l m) h

theorem setDifference_count (l m : List (Entry R)) (hl : Sorted l) (hm : Sorted m) (e : Entry R) :
    (setDifference l m).count e = l.count e - m.count e := by
  fun_induction setDifference l m with
  | case1 => simp
  | case2 l hne => simp
  | case3 a l b m h ih =>
    have hl' : Sorted l := (List.pairwise_cons.1 hl).2
    rw [List.count_cons, ih hl' hm, List.count_cons (a := e) (b := a)]
    by_cases he : a = e
    · subst he
      -- a is below every entry of b :: m
      have h0 : (b :: m).count a = 0 := by
        apply List.count_eq_zero_of_not_mem
        intro hmem
        rw [compare_iff] at h
        have hab : key b ≤ key a := by
          rcases List.mem_cons.1 hmem with hh | hh
          · rw [hh]
          · have := (List.pairwise_cons.1 hm).1 a hh
            rwa [compare_false_iff] at this
        exact absurd h (not_lt.2 hab)
      rw [h0]; simp
    · simp [he]
  | case4 a l b m h1 h2 ih =>
    have hm' : Sorted m := (List.pairwise_cons.1 hm).2
    rw [ih hl hm', List.count_cons (a := e) (b := b)]
    by_cases he : b = e
    · subst he
      have h0 : (a :: l).count b = 0 := by
        apply List.count_eq_zero_of_not_mem
        intro hmem
        rw [compare_iff] at h2
        have hab : key a ≤ key b := by
          rcases List.mem_cons.1 hmem with hh | hh
          · rw [hh]
          · have := (List.pairwise_cons.1 hl).1 b hh
            rwa [compare_false_iff] at this
        exact absurd h2 (not_lt.2 hab)
      rw [h0]; simp
    · simp [he]
  | case5 a l b m h1 h2 ih =>
    have hl' : Sorted l := (List.pairwise_cons.1 hl).2
    have hm' : Sorted m := (List.pairwise_cons.1 hm).2
    have hab : a = b := by
      simp only [Bool.not_eq_true] at h1 h2
      rw [compare_false_iff] at h1 h2
      exact key_inj (le_antisymm h2 h1)
    subst hab
    rw [ih hl' hm', List.count_cons, List.count_cons]
    omega

end Merge
end Verif.BondCalc
