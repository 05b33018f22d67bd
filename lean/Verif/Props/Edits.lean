import Verif.Model.Edits
import Verif.Props.Diff
import Mathlib.Data.Multiset.AddSub
import Mathlib.Data.Multiset.Filter
import Mathlib.Algebra.Order.Sub.Basic
import Mathlib.Algebra.Order.Group.Multiset
/-! C79: editing a structure and the difference that is reported afterwards. -/
namespace Verif.Edits
open Verif.Diff Verif.Eval

/-! ### Specification -/

/-- The number of atoms that an operation removes from a structure with `n` atoms; a new value counts as removing the
old atom and adding a new one. -/
def removes (n : Nat) : Edit → Nat
  | .insert _ _ => 0
  | .insertRange _ _ => 0
  | .append _ => 0
  | .clear => n
  | .erase _ => 1
  | .eraseRange f e => e - f
  | .set _ _ => 1
  | .assign _ => n
  | .assignN _ _ => n
  | .reserve _ => 0

/-- The number of atoms that an operation adds. -/
def adds : Edit → Nat
  | .insert _ _ => 1
  | .insertRange _ l => l.length
  | .append _ => 1
  | .set _ _ => 1
  | .assign l => l.length
  | .assignN n _ => n
  | _ => 0

/-- Atoms removed by a sequence of operations that starts with `n` atoms. -/
def removed (n : Nat) : List Edit → Nat
  | [] => 0
  | e :: es => removes n e + removed (n + adds e - removes n e) es

/-- Atoms added by a sequence of operations. -/
def added : List Edit → Nat
  | [] => 0
  | e :: es => adds e + added es

/-! ### The operations -/

/-- **C79**: where the atoms are after each operation, and the position of the returned iterator. -/
theorem edit_positions (l m : List Atom) :
    (∀ i a, edit l (.insert i a) = some m → m[i]? = some a ∧ (∀ k < i, m[k]? = l[k]?) ∧
      (∀ k, i ≤ k → m[k + 1]? = l[k]?) ∧ resultPos (.insert i a) = some i) ∧
    (∀ i r, edit l (.insertRange i r) = some m → (∀ k < i, m[k]? = l[k]?) ∧
      (∀ k < r.length, m[i + k]? = r[k]?) ∧ (∀ k, i ≤ k → m[k + r.length]? = l[k]?)) ∧
    (∀ i, edit l (.erase i) = some m → (∀ k < i, m[k]? = l[k]?) ∧ (∀ k, i ≤ k → m[k]? = l[k + 1]?) ∧
      resultPos (.erase i) = some i) ∧
    (∀ f e, edit l (.eraseRange f e) = some m → (∀ k < f, m[k]? = l[k]?) ∧
      (∀ k, f ≤ k → m[k]? = l[k + (e - f)]?) ∧ resultPos (.eraseRange f e) = some f) ∧
    (∀ i a, edit l (.set i a) = some m → m[i]? = some a ∧ ∀ k, k ≠ i → m[k]? = l[k]?) ∧
    (∀ a, edit l (.append a) = some m → m[l.length]? = some a ∧ ∀ k < l.length, m[k]? = l[k]?) ∧
    (∀ n a, edit l (.assignN n a) = some m → m.length = n ∧ ∀ k < n, m[k]? = some a) ∧
    (∀ r, edit l (.assign r) = some m → m = r) ∧ (∀ n, edit l (.reserve n) = some m → m = l) := by
  refine ⟨?_, ?_, ?_, ?_, ?_, ?_, ?_, ?_, ?_⟩
  · intro i a h
    simp only [edit] at h
    split at h
    · rename_i hi
      cases h
      refine ⟨?_, ?_, ?_, rfl⟩
      · rw [List.getElem?_append_right (by simp)]; simp [Nat.min_eq_left hi]
      · intro k hk
        rw [List.getElem?_append_left (by simp; omega), List.getElem?_take_of_lt hk]
      · intro k hk
        rw [List.getElem?_append_right (by simp; omega)]
        have : k + 1 - (l.take i).length = (k - i) + 1 := by simp; omega
        rw [this, List.getElem?_cons_succ, List.getElem?_drop]
        congr 1; omega
    · cases h
  · intro i r h
    simp only [edit] at h
    split at h
    · rename_i hi
      cases h
      refine ⟨?_, ?_, ?_⟩
      · intro k hk
        rw [List.append_assoc, List.getElem?_append_left (by simp; omega), List.getElem?_take_of_lt hk]
      · intro k hk
        rw [List.append_assoc, List.getElem?_append_right (by simp)]
        have : i + k - (l.take i).length = k := by simp; omega
        rw [this, List.getElem?_append_left hk]
      · intro k hk
        rw [List.append_assoc, List.getElem?_append_right (by simp; omega),
          List.getElem?_append_right (by simp; omega), List.getElem?_drop]
        congr 1; simp; omega
    · cases h
  · intro i h
    simp only [edit] at h
    split at h
    · rename_i hi
      cases h
      refine ⟨?_, ?_, rfl⟩
      · intro k hk
        rw [List.getElem?_append_left (by simp; omega), List.getElem?_take_of_lt hk]
      · intro k hk
        rw [List.getElem?_append_right (by simp; omega), List.getElem?_drop]
        congr 1; simp; omega
    · cases h
  · intro f e h
    simp only [edit] at h
    split at h
    · rename_i hi
      cases h
      refine ⟨?_, ?_, rfl⟩
      · intro k hk
        rw [List.getElem?_append_left (by simp; omega), List.getElem?_take_of_lt hk]
      · intro k hk
        rw [List.getElem?_append_right (by simp; omega), List.getElem?_drop]
        congr 1; simp; omega
    · cases h
  · intro i a h
    simp only [edit] at h
    split at h
    · rename_i hi
      cases h
      refine ⟨?_, ?_⟩
      · rw [List.getElem?_append_right (by simp)]
        have : i - (l.take i).length = 0 := by simp; omega
        rw [this]; rfl
      · intro k hk
        rcases Nat.lt_or_gt_of_ne hk with hk | hk
        · rw [List.getElem?_append_left (by simp; omega), List.getElem?_take_of_lt hk]
        · rw [List.getElem?_append_right (by simp; omega)]
          have : k - (l.take i).length = (k - i - 1) + 1 := by simp; omega
          rw [this, List.getElem?_cons_succ, List.getElem?_drop]
          congr 1; omega
    · cases h
  · intro a h
    simp only [edit] at h
    cases h
    exact ⟨by simp, fun k hk => List.getElem?_append_left hk⟩
  · intro n a h
    simp only [edit] at h
    cases h
    exact ⟨by simp, fun k hk => by simp [hk]⟩
  · intro r h; simp only [edit] at h; cases h; rfl
  · intro n h; simp only [edit] at h; cases h; rfl

/-- **C79**: which operations are allowed: positions up to the end for an insertion, existing atoms for a removal or a
write, ranges (also empty ones) within the structure; everything else always is.  `clear` removes all atoms. -/
theorem edit_allowed (l : List Atom) :
    (∀ i a, (edit l (.insert i a)).isSome = true ↔ i ≤ l.length) ∧
    (∀ i r, (edit l (.insertRange i r)).isSome = true ↔ i ≤ l.length) ∧
    (∀ i, (edit l (.erase i)).isSome = true ↔ i < l.length) ∧
    (∀ f e, (edit l (.eraseRange f e)).isSome = true ↔ f ≤ e ∧ e ≤ l.length) ∧
    (∀ i a, (edit l (.set i a)).isSome = true ↔ i < l.length) ∧
    (∀ a, (edit l (.append a)).isSome = true) ∧ (∀ r, (edit l (.assign r)).isSome = true) ∧
    (∀ n a, (edit l (.assignN n a)).isSome = true) ∧ (∀ n, (edit l (.reserve n)).isSome = true) ∧
    edit l .clear = some [] := by
  refine ⟨?_, ?_, ?_, ?_, ?_, fun _ => rfl, fun _ => rfl, fun _ _ => rfl, fun _ => rfl, rfl⟩
  all_goals
    intros
    simp only [edit]
    split <;> simp_all

/-- What one operation does to the atoms without their order: it removes at most `removes` and adds at most `adds`. -/
theorem edit_multiset {l m : List Atom} {e : Edit} (h : edit l e = some m) :
    ∃ R P A : List Atom, (l : Multiset Atom) = R + P ∧ (m : Multiset Atom) = R + A ∧
      P.length = removes l.length e ∧ A.length = adds e := by
  cases e with
  | insert i a =>
    simp only [edit] at h
    split at h
    · cases h
      refine ⟨l, [], [a], by simp, ?_, rfl, rfl⟩
      rw [Multiset.coe_add, Multiset.coe_eq_coe]
      have := List.perm_middle (l₁ := l.take i) (l₂ := l.drop i) (a := a)
      rw [List.take_append_drop] at this
      exact this.trans (List.perm_append_comm (l₁ := [a]) (l₂ := l))
    · cases h
  | insertRange i r =>
    simp only [edit] at h
    split at h
    · cases h
      refine ⟨l, [], r, by simp, ?_, rfl, rfl⟩
      simp only [← Multiset.coe_add]
      conv_rhs => rw [← List.take_append_drop i l]
      simp only [← Multiset.coe_add]
      abel
    · cases h
  | append a =>
    simp only [edit] at h
    cases h
    exact ⟨l, [], [a], by simp, (Multiset.coe_add l [a]).symm, rfl, rfl⟩
  | clear => simp only [edit] at h; cases h; exact ⟨[], l, [], by simp, by simp, rfl, rfl⟩
  | erase i =>
    simp only [edit] at h
    split at h
    · rename_i hi
      cases h
      refine ⟨l.take i ++ l.drop (i + 1), [l[i]], [], ?_, by simp, rfl, rfl⟩
      conv_lhs => rw [← List.take_append_drop i l, List.drop_eq_getElem_cons hi]
      rw [Multiset.coe_add, Multiset.coe_eq_coe]
      · exact (List.perm_middle).trans (List.perm_append_comm (l₁ := [l[i]]))
    · cases h
  | eraseRange f e =>
    simp only [edit] at h
    split at h
    · rename_i hfe
      cases h
      refine ⟨l.take f ++ l.drop e, (l.drop f).take (e - f), [], ?_, by simp, ?_, rfl⟩
      · conv_lhs => rw [← List.take_append_drop f l, ← List.take_append_drop (e - f) (l.drop f)]
        rw [List.drop_drop, show f + (e - f) = e by omega]
        simp only [← Multiset.coe_add]
        abel
      · simp only [removes, List.length_take, List.length_drop]; omega
    · cases h
  | set i a =>
    simp only [edit] at h
    split at h
    · rename_i hi
      cases h
      refine ⟨l.take i ++ l.drop (i + 1), [l[i]], [a], ?_, ?_, rfl, rfl⟩
      · conv_lhs => rw [← List.take_append_drop i l, List.drop_eq_getElem_cons hi]
        rw [Multiset.coe_add, Multiset.coe_eq_coe]
        exact (List.perm_middle).trans (List.perm_append_comm (l₁ := [l[i]]))
      · rw [Multiset.coe_add, Multiset.coe_eq_coe]
        exact (List.perm_middle).trans (List.perm_append_comm (l₁ := [a]))
    · cases h
  | assign r => simp only [edit] at h; cases h; exact ⟨[], l, _, by simp, by simp, rfl, rfl⟩
  | assignN n a => simp only [edit] at h; cases h; exact ⟨[], l, List.replicate n a, by simp, by simp, rfl, by simp [adds]⟩
  | reserve n => simp only [edit] at h; cases h; exact ⟨l, [], [], by simp, by simp, rfl, rfl⟩

theorem edit_length {l m : List Atom} {e : Edit} (h : edit l e = some m) :
    m.length = l.length + adds e - removes l.length e ∧ removes l.length e ≤ l.length := by
  obtain ⟨R, P, A, h1, h2, h3, h4⟩ := edit_multiset h
  have e1 := congrArg Multiset.card h1
  have e2 := congrArg Multiset.card h2
  simp only [Multiset.card_add, Multiset.coe_card] at e1 e2
  omega

open scoped Classical in
/-- The atoms of `l` that are not in `m`, counted with multiplicity, are at most those removed. -/
theorem edits_card (es : List Edit) : ∀ {l m : List Atom}, edits l es = some m →
    Multiset.card ((l : Multiset Atom) - (m : Multiset Atom)) ≤ removed l.length es ∧
    Multiset.card ((m : Multiset Atom) - (l : Multiset Atom)) ≤ added es := by
  induction es with
  | nil => intro l m h; cases h; simp [removed, added]
  | cons e es ih =>
    intro l m h
    simp only [edits] at h
    split at h
    · cases h
    · rename_i k hk
      obtain ⟨i1, i2⟩ := ih h
      obtain ⟨R, P, A, h1, h2, h3, h4⟩ := edit_multiset hk
      rw [(edit_length hk).1] at i1
      have b1 : Multiset.card ((l : Multiset Atom) - (k : Multiset Atom)) ≤ removes l.length e := by
        rw [h1, h2, ← h3, add_tsub_add_eq_tsub_left]
        calc _ ≤ Multiset.card (P : Multiset Atom) := Multiset.card_le_card tsub_le_self
          _ = _ := by simp
      have b2 : Multiset.card ((k : Multiset Atom) - (l : Multiset Atom)) ≤ adds e := by
        rw [h1, h2, ← h4, add_tsub_add_eq_tsub_left]
        calc _ ≤ Multiset.card (A : Multiset Atom) := Multiset.card_le_card tsub_le_self
          _ = _ := by simp
      constructor
      · have := Multiset.card_le_card
          (tsub_le_tsub_add_tsub (a := (l : Multiset Atom)) (b := (k : Multiset Atom)) (c := (m : Multiset Atom)))
        rw [Multiset.card_add] at this
        simp only [removed]; omega
      · have := Multiset.card_le_card
          (tsub_le_tsub_add_tsub (a := (m : Multiset Atom)) (b := (k : Multiset Atom)) (c := (l : Multiset Atom)))
        rw [Multiset.card_add] at this
        simp only [added]; omega

/-- **C79**: the number of atoms after a sequence of operations. -/
theorem edits_length (es : List Edit) : ∀ {l m : List Atom}, edits l es = some m →
    m.length + removed l.length es = l.length + added es := by
  induction es with
  | nil => intro l m h; cases h; rfl
  | cons e es ih =>
    intro l m h
    simp only [edits] at h
    split at h
    · cases h
    · rename_i k hk
      obtain ⟨h1, h2⟩ := edit_length hk
      have := ih h
      rw [h1] at this
      simp only [removed, added]
      omega

/-! ### The difference -/

/-- Reading all sites of a list of valid sites. -/
theorem read_all (a : List Atom) (T : List Nat) (h : ∀ i ∈ T, i < a.length) :
    (T.filterMap fun k => a[k]?).length = T.length := by
  induction T with
  | nil => rfl
  | cons t T ih =>
    have hb := h t (by simp)
    have ht : a[t]? = some (a[t]) := List.getElem?_eq_getElem hb
    rw [List.filterMap_cons_some ht, List.length_cons, List.length_cons,
      ih fun i hi => h i (List.mem_cons_of_mem _ hi)]

/-- A list of atoms split by a set of sites. -/
theorem split_sites (a : List Atom) (S : List Nat) (hv : ValidSites a.length S) :
    ∃ P : List Atom, P.length = S.length ∧ (∀ x ∈ P, ∃ i ∈ S, a[i]? = some x) ∧
      (a : Multiset Atom) = (((List.range a.length).filter fun k => !decide (k ∈ S)).filterMap fun k => a[k]? :
          List Atom) + (P : Multiset Atom) := by
  obtain ⟨hs, hb⟩ := hv
  have hnd : S.Nodup := hs.imp fun h => Nat.ne_of_lt h
  refine ⟨S.filterMap fun k => a[k]?, read_all a S hb, ?_, ?_⟩
  · intro x hx
    obtain ⟨i, hi, h⟩ := List.mem_filterMap.1 hx
    exact ⟨i, hi, h⟩
  · have e1 : a = (List.range a.length).filterMap fun k => a[k]? := by
      apply List.ext_getElem?
      have : ∀ (b : List Atom) (n : Nat), n ≤ b.length → (List.range n).filterMap (fun k => b[k]?) = b.take n := by
        intro b n
        induction n with
        | zero => intro _; rfl
        | succ n ih =>
          intro hn
          have hb : n < b.length := hn
          rw [List.range_succ, List.filterMap_append, ih (by omega)]
          have ht : b[n]? = some (b[n]) := List.getElem?_eq_getElem hb
          rw [List.filterMap_cons_some ht, List.filterMap_nil, List.take_add_one, ht]
          rfl
      rw [this a a.length (Nat.le_refl _), List.take_length]
      intro i; rfl
    conv_lhs => rw [e1]
    rw [Multiset.coe_add, Multiset.coe_eq_coe, ← List.filterMap_append]
    apply List.Perm.filterMap
    rw [List.perm_ext_iff_of_nodup List.nodup_range]
    · intro k
      simp only [List.mem_range, List.mem_append, List.mem_filter, Bool.not_eq_true', decide_eq_false_iff_not]
      constructor
      · intro hk
        by_cases h : k ∈ S
        · exact Or.inr h
        · exact Or.inl ⟨hk, h⟩
      · rintro (h | h)
        · exact h.1
        · exact hb k h
    · refine List.Nodup.append (List.nodup_range.filter _) hnd ?_
      intro k hk hk2
      simp only [List.mem_filter, Bool.not_eq_true', decide_eq_false_iff_not] at hk
      exact hk.2 hk2

open scoped Classical in
theorem sub_of_disjoint (P Q : Multiset Atom) (h : ∀ x ∈ P, x ∉ Q) : P - Q = P := by
  ext x
  rw [Multiset.count_sub]
  by_cases hx : x ∈ P
  · rw [Multiset.count_eq_zero_of_notMem (h x hx)]; rfl
  · rw [Multiset.count_eq_zero_of_notMem hx]; omega

open scoped Classical in
/-- **C79**: a sorted difference lists as few sites as possible: as many as there are atoms of the old structure that
are missing in the new one, counted with multiplicity, and the other way round. -/
theorem sorted_diff_minimal (s : Sorter) (hs : SortSpec s) (same castOk : Bool) (a0 a1 : List Atom)
    (hm : (atomicDiff s same castOk a0 a1).method = .sorted) :
    (atomicDiff s same castOk a0 a1).pop0.length
      = Multiset.card ((a0 : Multiset Atom) - (a1 : Multiset Atom)) ∧
    (atomicDiff s same castOk a0 a1).add1.length
      = Multiset.card ((a1 : Multiset Atom) - (a0 : Multiset Atom)) := by
  obtain ⟨v0, v1, hp, hd⟩ := diff_sorted s hs same castOk a0 a1 hm
  obtain ⟨P, p1, p2, p3⟩ := split_sites a0 _ v0
  obtain ⟨Q, q1, q2, q3⟩ := split_sites a1 _ v1
  have hp' := hp.filterMap (fun x : Option Atom => x)
  rw [List.filterMap_map, List.filterMap_map] at hp'
  have hp'' : _ = _ := Multiset.coe_eq_coe.2 hp'
  have p4 : (a0 : Multiset Atom) = ((List.filterMap ((fun x : Option Atom => x) ∘ fun k => a1[k]?)
      ((List.range a1.length).filter fun k => !decide (k ∈ (atomicDiff s same castOk a0 a1).add1)) :
        List Atom) : Multiset Atom) + (P : Multiset Atom) := by
    rw [← hp'']; exact p3
  have q4 : (a1 : Multiset Atom) = ((List.filterMap ((fun x : Option Atom => x) ∘ fun k => a1[k]?)
      ((List.range a1.length).filter fun k => !decide (k ∈ (atomicDiff s same castOk a0 a1).add1)) :
        List Atom) : Multiset Atom) + (Q : Multiset Atom) := q3
  rw [← p1, ← q1]
  have d1 : ∀ x ∈ (P : Multiset Atom), x ∉ (Q : Multiset Atom) := by
    intro x hx hy
    obtain ⟨i, hi, e1⟩ := p2 _ (Multiset.mem_coe.1 hx)
    obtain ⟨j, hj, e2⟩ := q2 _ (Multiset.mem_coe.1 hy)
    exact hd i hi j hj (e1.trans e2.symm)
  have d2 : ∀ x ∈ (Q : Multiset Atom), x ∉ (P : Multiset Atom) := fun x hx hy => d1 x hy hx
  generalize (List.filterMap ((fun x : Option Atom => x) ∘ fun k => a1[k]?)
      ((List.range a1.length).filter fun k => !decide (k ∈ (atomicDiff s same castOk a0 a1).add1)) :
        List Atom) = R at p4 q4
  rw [p4, q4, add_tsub_add_eq_tsub_left, add_tsub_add_eq_tsub_left, sub_of_disjoint _ _ d1, sub_of_disjoint _ _ d2]
  simp

/-- What `diff` of two different structures of the class gives: a side-by-side difference that allows a fast update,
or a sorted one. -/
theorem atomicDiff_cases (s : Sorter) (a0 a1 : List Atom) :
    ((atomicDiff s false true a0 a1).method = .sideBySide ∧ (atomicDiff s false true a0 a1).allowsFast = true) ∨
    (atomicDiff s false true a0 a1).method = .sorted := by
  unfold atomicDiff
  simp only [Bool.false_eq_true, if_false, Bool.not_true]
  split
  · rename_i h; exact Or.inl ⟨rfl, h⟩
  · exact Or.inr rfl

theorem atomicDiff_n0 (s : Sorter) (same castOk : Bool) (a0 a1 : List Atom) :
    (atomicDiff s same castOk a0 a1).n0 = a0.length := by
  unfold atomicDiff baseDiff
  cases same <;> cases castOk <;> simp
  split <;> rfl

/-- **C79**: whatever operations led from one structure to another, wherever in the structure they were made, a sorted
difference lists at most as many sites as atoms were removed and added. -/
theorem edits_bound_difference (s : Sorter) (hs : SortSpec s) (a0 a1 : List Atom) (es : List Edit)
    (h : edits a0 es = some a1) (hm : (atomicDiff s false true a0 a1).method = .sorted) :
    (atomicDiff s false true a0 a1).pop0.length ≤ removed a0.length es ∧
    (atomicDiff s false true a0 a1).add1.length ≤ added es := by
  classical
  obtain ⟨h1, h2⟩ := sorted_diff_minimal s hs false true a0 a1 hm
  rw [h1, h2]
  exact edits_card es h

/-- **C79**: when the operations remove or change `k` of the `n` atoms with `k < (1 - sqrt 1/2) n`, the difference allows
a fast update, however the atoms were shifted by insertions and removals. -/
theorem small_edits_allow_fast_update (s : Sorter) (hs : SortSpec s) (a0 a1 : List Atom) (es : List Edit)
    (h : edits a0 es = some a1)
    (hk : (removed a0.length es : ℝ) < (1 - Real.sqrt (1 / 2)) * (a0.length : ℝ)) :
    (atomicDiff s false true a0 a1).allowsFast = true := by
  rcases atomicDiff_cases s a0 a1 with ⟨_, h1⟩ | hm
  · exact h1
  · have hb := (edits_bound_difference s hs a0 a1 es h hm).1
    have hv := (diff_sorted s hs false true a0 a1 hm).1
    have hlen : (atomicDiff s false true a0 a1).pop0.length ≤ a0.length := by
      have h2 : (removed a0.length es : ℝ) ≤ a0.length := by
        have := Real.sqrt_nonneg (1 / 2)
        have hn : (0 : ℝ) ≤ a0.length := by positivity
        nlinarith
      have : removed a0.length es ≤ a0.length := by exact_mod_cast h2
      omega
    rw [allowsFast_iff_real _ (by rw [atomicDiff_n0]; exact hlen), atomicDiff_n0]
    have : ((atomicDiff s false true a0 a1).pop0.length : ℝ) ≤ removed a0.length es := by exact_mod_cast hb
    linarith

/-- **C79**: a structure whose atoms were only put in another order always allows a fast update, unless it is empty. -/
theorem reordered_allows_fast_update (s : Sorter) (hs : SortSpec s) (a0 a1 : List Atom) (h : a0.Perm a1)
    (hn : a0 ≠ []) : (atomicDiff s false true a0 a1).allowsFast = true := by
  classical
  rcases atomicDiff_cases s a0 a1 with ⟨_, h1⟩ | hm
  · exact h1
  · have h1 := (sorted_diff_minimal s hs false true a0 a1 hm).1
    rw [Multiset.coe_eq_coe.2 h] at h1
    simp only [tsub_self, Multiset.card_zero] at h1
    have hpos : 0 < a0.length := List.length_pos_iff.2 hn
    unfold SD.allowsFast
    rw [atomicDiff_n0, h1, decide_eq_true_eq, Nat.sub_zero]
    nlinarith [Nat.mul_pos hpos hpos]

theorem sideLoop_append (l m : List Atom) : ∀ i, sideLoop i l (l ++ m) = ([], List.range' (i + l.length) m.length) := by
  induction l with
  | nil =>
    intro i
    cases m with
    | nil => rfl
    | cons x xs => rfl
  | cons a l ih =>
    intro i
    have hb : a.beq a = true := by unfold Atom.beq; simp
    rw [List.cons_append, sideLoop, hb, ih (i + 1)]
    simp only [Bool.not_true, Bool.false_eq_true, if_false, List.length_cons]
    congr 2
    omega

/-- **C79**: after atoms were only appended to a structure that is not empty, the difference is side by side, removes
nothing and adds exactly the new sites, and it allows a fast update.  The first atoms of an empty structure never
allow one. -/
theorem append_only_difference (s : Sorter) (l m : List Atom) :
    (l ≠ [] → atomicDiff s false true l (l ++ m)
      = ⟨l.length, l.length + m.length, [], List.range' l.length m.length, .sideBySide⟩ ∧
      (atomicDiff s false true l (l ++ m)).allowsFast = true) ∧
    (l = [] → (atomicDiff s false true l m).allowsFast = false) := by
  constructor
  · intro hl
    have hpos : 0 < l.length := List.length_pos_iff.2 hl
    have hf : SD.allowsFast ⟨l.length, (l ++ m).length, (sideLoop 0 l (l ++ m)).1, (sideLoop 0 l (l ++ m)).2,
        .sideBySide⟩ = true := by
      unfold SD.allowsFast
      rw [sideLoop_append]
      simp only [List.length_nil, Nat.sub_zero, decide_eq_true_eq]
      nlinarith [Nat.mul_pos hpos hpos]
    have e : atomicDiff s false true l (l ++ m)
        = ⟨l.length, l.length + m.length, [], List.range' l.length m.length, .sideBySide⟩ := by
      unfold atomicDiff
      simp only [Bool.false_eq_true, if_false, Bool.not_true]
      rw [if_pos hf, sideLoop_append]
      simp
    refine ⟨e, ?_⟩
    rw [e]
    unfold SD.allowsFast
    simp only [List.length_nil, Nat.sub_zero, decide_eq_true_eq]
    nlinarith [Nat.mul_pos hpos hpos]
  · rintro rfl
    unfold SD.allowsFast
    rw [atomicDiff_n0]
    simp

/-- The sites that a sequence of writes through `operator[]` touches. -/
def touched : List Edit → List Nat
  | [] => []
  | .set i _ :: es => i :: touched es
  | _ :: es => touched es

/-- **C79**: after only writes through `operator[]`, a side-by-side difference lists the same sites on both sides, all of
them among the sites written to; a site that got its old value back is not listed. -/
theorem writes_difference (s : Sorter) (a0 a1 : List Atom) (es : List Edit)
    (hset : ∀ e ∈ es, ∃ i a, e = .set i a) (h : edits a0 es = some a1)
    (hm : (atomicDiff s false true a0 a1).method = .sideBySide) :
    (atomicDiff s false true a0 a1).pop0 = (atomicDiff s false true a0 a1).add1 ∧
    ∀ k ∈ (atomicDiff s false true a0 a1).pop0, k ∈ touched es ∧ a0[k]? ≠ a1[k]? := by
  have hall : a1.length = a0.length ∧ ∀ k, k ∉ touched es → a1[k]? = a0[k]? := by
    have : ∀ (es : List Edit) (a0 a1 : List Atom), (∀ e ∈ es, ∃ i a, e = .set i a) → edits a0 es = some a1 →
        a1.length = a0.length ∧ ∀ k, k ∉ touched es → a1[k]? = a0[k]? := by
      intro es
      induction es with
      | nil => intro a0 a1 _ h; cases h; exact ⟨rfl, fun _ _ => rfl⟩
      | cons e es ih =>
        intro a0 a1 hset h
        obtain ⟨i, a, rfl⟩ := hset e (by simp)
        simp only [edits] at h
        split at h
        · cases h
        · rename_i b hb
          obtain ⟨h1, h2⟩ := ih b a1 (fun e he => hset e (List.mem_cons_of_mem _ he)) h
          have hl := (edit_length hb).1
          have hl2 := (edit_length hb).2
          simp only [adds, removes] at hl hl2
          refine ⟨by omega, fun k hk => ?_⟩
          simp only [touched, List.mem_cons, not_or] at hk
          rw [h2 k hk.2, ((edit_positions a0 b).2.2.2.2.1 i a hb).2 k hk.1]
    exact this es a0 a1 hset h
  obtain ⟨hl, hk⟩ := hall
  obtain ⟨v0, v1, m0, m1⟩ := diff_sideBySide s false true a0 a1 (by simp) hm
  refine ⟨?_, ?_⟩
  · apply (v0.1).eq_of_mem_iff v1.1
    intro k
    rw [m0, m1, hl]
  · intro k hk2
    have := (m0 k).1 hk2
    exact ⟨by by_contra hc; exact this.2 (hk k hc).symm, this.2⟩

/-- A mixture of operations on five atoms: one atom replaced, two inserted in front, so that every site is shifted. -/
example : edits [exAtom "C" 0, exAtom "C" 1, exAtom "O" 2, exAtom "O" 3, exAtom "O" 4]
      [.set 1 (exAtom "N" 1), .insert 0 (exAtom "H" 7), .insertRange 1 [exAtom "H" 8], .reserve 10]
    = some [exAtom "H" 7, exAtom "H" 8, exAtom "C" 0, exAtom "N" 1, exAtom "O" 2, exAtom "O" 3, exAtom "O" 4] ∧
    removed 5 [.set 1 (exAtom "N" 1), .insert 0 (exAtom "H" 7), .insertRange 1 [exAtom "H" 8], .reserve 10] = 1 := by
  decide +kernel

/-- One of five atoms is fewer than the limit, so the theorem gives a fast update, and the difference is minimal. -/
example : (atomicDiff exSorter false true [exAtom "C" 0, exAtom "C" 1, exAtom "O" 2, exAtom "O" 3, exAtom "O" 4]
    [exAtom "H" 7, exAtom "H" 8, exAtom "C" 0, exAtom "N" 1, exAtom "O" 2, exAtom "O" 3, exAtom "O" 4])
    = ⟨5, 7, [1], [0, 1, 3], .sorted⟩ := by decide +kernel

example : ((1 : ℕ) : ℝ) < (1 - Real.sqrt (1 / 2)) * ((5 : ℕ) : ℝ) := by
  have : Real.sqrt (1 / 2) < 3 / 4 := by
    rw [Real.sqrt_lt' (by norm_num)]; norm_num
  push_cast; linarith

end Verif.Edits
