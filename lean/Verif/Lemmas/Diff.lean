import Verif.Model.Diff
import Mathlib.Data.List.Sort
import Mathlib.Tactic.Linarith
import Mathlib.Order.Defs.LinearOrder
/-! Lemmas on atom order, the side-by-side loop and the symmetric difference. -/
namespace Verif.Diff

/-! ### atom order -/

/-- All numeric sort keys of an atom in comparison order. -/
def Atom.keys (a : Atom) : List Rat :=
  a.xyz ++ [a.occupancy, if a.anisotropy then 1 else 0] ++ a.uij

theorem cmpLoop_append (l1 l2 m1 m2 : List Rat) (h : l1.length = m1.length) :
    cmpLoop (l1 ++ l2) (m1 ++ m2) = (cmpLoop l1 m1).orElse (fun _ => cmpLoop l2 m2) := by
  induction l1 generalizing m1 with
  | nil => cases m1 with
    | nil => simp [cmpLoop]
    | cons _ _ => simp at h
  | cons a l1 ih => cases m1 with
    | nil => simp at h
    | cons b m1 =>
      simp only [List.cons_append, cmpLoop]
      split
      · rfl
      · split
        · rfl
        · exact ih m1 (by simpa using h)

theorem cmpLoop_none (l m : List Rat) (h : l.length = m.length) : cmpLoop l m = none ↔ l = m := by
  induction l generalizing m with
  | nil => cases m with
    | nil => simp [cmpLoop]
    | cons _ _ => simp at h
  | cons a l ih => cases m with
    | nil => simp at h
    | cons b m =>
      have h' : l.length = m.length := by simpa using h
      simp only [cmpLoop]
      split
      · rename_i hab
        simp; intro e; exact absurd e (ne_of_lt hab)
      · split
        · rename_i hab
          simp; intro e; exact absurd e.symm (ne_of_lt hab)
        · rw [ih m h']
          have : a = b := le_antisymm (not_lt.1 ‹¬ a > b›) (not_lt.1 ‹¬ a < b›)
          simp [this]

theorem cmpLoop_trans (l m k : List Rat) (h1 : l.length = m.length) (h2 : m.length = k.length)
    (ha : cmpLoop l m = some true) (hb : cmpLoop m k = some true) : cmpLoop l k = some true := by
  induction l generalizing m k with
  | nil => simp [cmpLoop] at ha
  | cons a l ih => cases m with
    | nil => simp at h1
    | cons b m => cases k with
      | nil => simp at h2
      | cons c k =>
        simp only [cmpLoop] at ha hb ⊢
        by_cases e1 : a < b
        · by_cases e2 : b < c
          · simp [lt_trans e1 e2]
          · simp only [e2, if_false] at hb
            by_cases e3 : b > c
            · simp [e3] at hb
            · have : b = c := le_antisymm (not_lt.1 e3) (not_lt.1 e2)
              subst this; simp [e1]
        · simp only [e1, if_false] at ha
          by_cases e3 : a > b
          · simp [e3] at ha
          · have : a = b := le_antisymm (not_lt.1 e3) (not_lt.1 e1)
            subst this
            simp only [e3, if_false] at ha
            by_cases e2 : a < c
            · simp [e2]
            · simp only [e2, if_false] at hb ⊢
              by_cases e4 : a > c
              · simp [e4] at hb
              · simp only [e4, if_false] at hb ⊢
                exact ih m k (by simpa using h1) (by simpa using h2) ha hb

theorem cmpLoop_swap (l m : List Rat) : cmpLoop m l = (cmpLoop l m).map (fun b => !b) := by
  induction l generalizing m with
  | nil => cases m <;> simp [cmpLoop]
  | cons a l ih => cases m with
    | nil => simp [cmpLoop]
    | cons b m =>
      simp only [cmpLoop]
      by_cases e1 : a < b
      · have : ¬ b < a := not_lt_of_gt e1
        simp [e1, this]
      · by_cases e2 : b < a
        · simp [e1, e2]
        · simp [e1, e2, ih]

theorem keys_length (a : Atom) : a.keys.length = 14 := rfl

theorem lt_eq_keys (a b : Atom) : a.lt b =
    if a.atomtype < b.atomtype then true else if a.atomtype > b.atomtype then false
    else (cmpLoop a.keys b.keys).getD false := by
  unfold Atom.lt
  split
  · rfl
  split
  · rfl
  unfold Atom.keys
  rw [cmpLoop_append _ _ _ _ (by rfl), cmpLoop_append _ _ _ _ (by rfl)]
  cases h : cmpLoop a.xyz b.xyz with
  | some r => simp
  | none =>
    simp only [Option.orElse_none, cmpLoop]
    by_cases e1 : a.occupancy < b.occupancy
    · simp [e1]
    · by_cases e2 : a.occupancy > b.occupancy
      · simp [e1, e2]
      · simp only [e1, e2, if_false]
        cases ha : a.anisotropy <;> cases hb : b.anisotropy <;> norm_num

theorem atom_ext_keys (a b : Atom) (ht : a.atomtype = b.atomtype) (hk : a.keys = b.keys) : a = b := by
  obtain ⟨t, x, y, z, o, an, u1, u2, u3, u4, u5, u6, u7, u8, u9⟩ := a
  obtain ⟨t', x', y', z', o', an', u1', u2', u3', u4', u5', u6', u7', u8', u9'⟩ := b
  simp only [Atom.keys, Atom.xyz, Atom.uij, List.cons_append, List.nil_append, List.cons.injEq] at hk
  obtain ⟨h1, h2, h3, h4, h5, h6, h7, h8, h9, h10, h11, h12, h13, h14, -⟩ := hk
  have h5' : an = an' := by
    cases an <;> cases an' <;> simp at h5 <;> rfl
  simp_all

theorem beq_iff (a b : Atom) : a.beq b = true ↔ a = b := by
  constructor
  · intro h
    simp only [Atom.beq, Bool.and_eq_true, decide_eq_true_eq, beq_iff_eq] at h
    obtain ⟨⟨⟨⟨h1, h2⟩, h3⟩, h4⟩, h5⟩ := h
    apply atom_ext_keys a b h1
    simp [Atom.keys, h2, h3, h4, h5]
  · rintro rfl; simp [Atom.beq]

theorem lt_irrefl (a : Atom) : a.lt a = false := by
  rw [lt_eq_keys]
  have := (cmpLoop_none a.keys a.keys rfl).2 rfl
  simp [this]

theorem lt_trans' (a b c : Atom) (h1 : a.lt b = true) (h2 : b.lt c = true) : a.lt c = true := by
  rw [lt_eq_keys] at *
  by_cases e1 : a.atomtype < b.atomtype
  · by_cases e2 : b.atomtype < c.atomtype
    · simp [lt_trans e1 e2]
    · simp only [e2, if_false] at h2
      by_cases e3 : b.atomtype > c.atomtype
      · simp [e3] at h2
      · have : b.atomtype = c.atomtype := le_antisymm (not_lt.1 e3) (not_lt.1 e2)
        rw [← this]; simp [e1]
  · simp only [e1, if_false] at h1
    by_cases e3 : a.atomtype > b.atomtype
    · simp [e3] at h1
    · have e : a.atomtype = b.atomtype := le_antisymm (not_lt.1 e3) (not_lt.1 e1)
      simp only [e3, if_false] at h1
      rw [e]
      by_cases e2 : b.atomtype < c.atomtype
      · simp [e2]
      · simp only [e2, if_false] at h2 ⊢
        by_cases e4 : b.atomtype > c.atomtype
        · simp [e4] at h2
        · simp only [e4, if_false] at h2 ⊢
          have t1 : cmpLoop a.keys b.keys = some true := by
            cases h : cmpLoop a.keys b.keys with
            | none => simp [h] at h1
            | some r => simp [h] at h1; rw [h1]
          have t2 : cmpLoop b.keys c.keys = some true := by
            cases h : cmpLoop b.keys c.keys with
            | none => simp [h] at h2
            | some r => simp [h] at h2; rw [h2]
          rw [cmpLoop_trans a.keys b.keys c.keys rfl rfl t1 t2]; rfl

theorem lt_tricho (a b : Atom) (h1 : a.lt b = false) (h2 : b.lt a = false) : a = b := by
  rw [lt_eq_keys] at *
  by_cases e1 : a.atomtype < b.atomtype
  · simp [e1] at h1
  · by_cases e2 : b.atomtype < a.atomtype
    · simp [e2] at h2
    · have e : a.atomtype = b.atomtype := le_antisymm (not_lt.1 e2) (not_lt.1 e1)
      simp only [e1, e2, if_false] at h1 h2
      rw [cmpLoop_swap a.keys b.keys] at h2
      apply atom_ext_keys a b e
      apply (cmpLoop_none a.keys b.keys rfl).1
      cases h : cmpLoop a.keys b.keys with
      | none => rfl
      | some r => cases r <;> simp [h] at h1 h2

/-- `x < y` and `y ≤ z` give `x < z`. -/
theorem lt_of_lt_of_not_lt (x y z : Atom) (h1 : x.lt y = true) (h2 : z.lt y = false) :
    x.lt z = true := by
  by_cases h : y.lt z = true
  · exact lt_trans' _ _ _ h1 h
  · have : y = z := lt_tricho _ _ (by simpa using h) h2
    rw [← this]; exact h1

/-! ### side by side -/

theorem sideLoop_mem0 (a0 a1 : List Atom) (i k : Nat) :
    k ∈ (sideLoop i a0 a1).1 ↔ i ≤ k ∧ k - i < a0.length ∧ a0[k - i]? ≠ a1[k - i]? := by
  induction a0 generalizing a1 i with
  | nil => cases a1 <;> simp [sideLoop]
  | cons a a0 ih => cases a1 with
    | nil =>
      simp only [sideLoop, List.mem_range', List.getElem?_nil]
      constructor
      · rintro ⟨j, hj, rfl⟩
        refine ⟨by omega, by omega, ?_⟩
        rw [show i + 1 * j - i = j by omega, List.getElem?_eq_getElem hj]; simp
      · rintro ⟨h1, h2, _⟩
        exact ⟨k - i, h2, by omega⟩
    | cons b a1 =>
      have hstep : (i ≤ k ∧ k - i < (a :: a0).length ∧ (a :: a0)[k - i]? ≠ (b :: a1)[k - i]?) ↔
          (k = i ∧ a ≠ b) ∨ (i + 1 ≤ k ∧ k - (i + 1) < a0.length ∧ a0[k - (i + 1)]? ≠ a1[k - (i + 1)]?) := by
        by_cases hk : k = i
        · subst hk
          simp
        · by_cases hlt : i ≤ k
          · obtain ⟨d, rfl⟩ : ∃ d, k = i + 1 + d := ⟨k - (i + 1), by omega⟩
            have e1 : i + 1 + d - i = d + 1 := by omega
            have e2 : i + 1 + d - (i + 1) = d := by omega
            simp only [e1, e2, List.length_cons, List.getElem?_cons_succ, hk, false_and, false_or]
            constructor
            · rintro ⟨_, h2, h3⟩; exact ⟨by omega, by omega, h3⟩
            · rintro ⟨_, h2, h3⟩; exact ⟨by omega, by omega, h3⟩
          · constructor
            · rintro ⟨h, _⟩; exact absurd h hlt
            · rintro (⟨h, _⟩ | ⟨h, _⟩)
              · exact absurd h hk
              · omega
      rw [hstep]
      simp only [sideLoop]
      by_cases hb : a = b
      · have : a.beq b = true := (beq_iff a b).2 hb
        simp only [this, Bool.not_true, Bool.false_eq_true, if_false, ih]
        simp [hb]
      · have : a.beq b = false := by
          cases h : a.beq b with
          | false => rfl
          | true => exact absurd ((beq_iff a b).1 h) hb
        simp only [this, Bool.not_false, if_true, List.mem_cons, ih]
        simp [hb]

theorem sideLoop_swap (a0 a1 : List Atom) (i : Nat) :
    sideLoop i a1 a0 = ((sideLoop i a0 a1).2, (sideLoop i a0 a1).1) := by
  induction a0 generalizing a1 i with
  | nil => cases a1 <;> simp [sideLoop]
  | cons a a0 ih => cases a1 with
    | nil => simp [sideLoop]
    | cons b a1 =>
      simp only [sideLoop, ih]
      have : b.beq a = a.beq b := by
        rw [Bool.eq_iff_iff, beq_iff, beq_iff]; exact eq_comm
      rw [this]
      split <;> rfl

theorem sideLoop_mem1 (a0 a1 : List Atom) (i k : Nat) :
    k ∈ (sideLoop i a0 a1).2 ↔ i ≤ k ∧ k - i < a1.length ∧ a0[k - i]? ≠ a1[k - i]? := by
  have h := sideLoop_mem0 a1 a0 i k
  rw [sideLoop_swap a0 a1] at h
  simp only at h
  rw [h]
  constructor
  · rintro ⟨h1, h2, h3⟩; exact ⟨h1, h2, h3.symm⟩
  · rintro ⟨h1, h2, h3⟩; exact ⟨h1, h2, h3.symm⟩

theorem sideLoop_sorted0 (a0 a1 : List Atom) (i : Nat) :
    (sideLoop i a0 a1).1.Pairwise (· < ·) := by
  induction a0 generalizing a1 i with
  | nil => cases a1 <;> simp [sideLoop]
  | cons a a0 ih => cases a1 with
    | nil => simp only [sideLoop]; exact List.pairwise_lt_range'
    | cons b a1 =>
      simp only [sideLoop]
      split
      · refine List.pairwise_cons.2 ⟨?_, ih a1 (i + 1)⟩
        intro k hk
        have := ((sideLoop_mem0 a0 a1 (i + 1) k).1 hk).1
        omega
      · exact ih a1 (i + 1)

theorem sideLoop_sorted1 (a0 a1 : List Atom) (i : Nat) :
    (sideLoop i a0 a1).2.Pairwise (· < ·) := by
  have h := sideLoop_sorted0 a1 a0 i
  rw [sideLoop_swap a0 a1] at h
  exact h

/-! ### symmetric difference -/

/-- `l` is sorted by atom. -/
def ASorted (l : List AtomIndex) : Prop := l.Pairwise fun p q => q.1.lt p.1 = false

/-- Outcome of the symmetric difference: matched pairs with equal atoms and two remainders without
a common atom. -/
theorem symDiff_spec (l0 l1 : List AtomIndex) (h0 : ASorted l0) (h1 : ASorted l1) :
    ∃ m0 m1 o0 o1 : List AtomIndex, l0.Perm (m0 ++ o0) ∧ l1.Perm (m1 ++ o1) ∧
      (symDiff l0 l1).Perm (o0 ++ o1) ∧ m0.map Prod.fst = m1.map Prod.fst ∧
      ∀ p ∈ o0, ∀ q ∈ o1, p.1 ≠ q.1 := by
  induction l0, l1 using symDiff.induct with
  | case1 l =>
    exact ⟨[], [], [], l, by simp, by simp, by simp [symDiff], rfl, by simp⟩
  | case2 x xs =>
    exact ⟨[], [], x :: xs, [], by simp, by simp, by simp [symDiff], rfl, by simp⟩
  | case3 x xs y ys hlt ih =>
    unfold ASorted at h0 h1
    rw [List.pairwise_cons] at h0
    obtain ⟨m0, m1, o0, o1, p0, p1, p2, e, hd⟩ := ih h0.2 h1
    refine ⟨m0, m1, x :: o0, o1, ?_, p1, ?_, e, ?_⟩
    · exact (p0.cons x).trans List.perm_middle.symm
    · rw [symDiff, if_pos hlt]; exact p2.cons x
    · intro p hp q hq
      rcases List.mem_cons.1 hp with h | h
      · subst h
        have hq' : q ∈ y :: ys := p1.symm.subset (List.mem_append_right _ hq)
        have hxq : p.1.lt q.1 = true := by
          rcases List.mem_cons.1 hq' with h | h
          · rw [h]; exact hlt
          · exact lt_of_lt_of_not_lt _ _ _ hlt ((List.pairwise_cons.1 h1).1 q h)
        intro e
        rw [e, lt_irrefl] at hxq
        exact absurd hxq (by simp)
      · exact hd p h q hq
  | case4 x xs y ys hlt hlt2 ih =>
    unfold ASorted at h0 h1
    rw [List.pairwise_cons] at h1
    obtain ⟨m0, m1, o0, o1, p0, p1, p2, e, hd⟩ := ih h0 h1.2
    refine ⟨m0, m1, o0, y :: o1, p0, ?_, ?_, e, ?_⟩
    · exact (p1.cons y).trans List.perm_middle.symm
    · rw [symDiff, if_neg hlt, if_pos hlt2]; exact (p2.cons y).trans List.perm_middle.symm
    · intro p hp q hq
      rcases List.mem_cons.1 hq with h | h
      · subst h
        have hp' : p ∈ x :: xs := p0.symm.subset (List.mem_append_right _ hp)
        have hxq : q.1.lt p.1 = true := by
          rcases List.mem_cons.1 hp' with h | h
          · rw [h]; exact hlt2
          · exact lt_of_lt_of_not_lt _ _ _ hlt2 ((List.pairwise_cons.1 h0).1 p h)
        intro e
        rw [e, lt_irrefl] at hxq
        exact absurd hxq (by simp)
      · exact hd p hp q h
  | case5 x xs y ys hlt hlt2 ih =>
    unfold ASorted at h0 h1
    rw [List.pairwise_cons] at h0 h1
    obtain ⟨m0, m1, o0, o1, p0, p1, p2, e, hd⟩ := ih h0.2 h1.2
    refine ⟨x :: m0, y :: m1, o0, o1, p0.cons x, p1.cons y, ?_, ?_, hd⟩
    · rw [symDiff, if_neg hlt, if_neg hlt2]; exact p2
    · have : x.1 = y.1 := lt_tricho _ _ (by simpa using hlt) (by simpa using hlt2)
      simp [this, e]

end Verif.Diff
