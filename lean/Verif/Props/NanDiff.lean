import Verif.Model.NanDiff
import Verif.Props.Diff
/-! C80: structure differences when coordinates may be "not a number". -/
namespace Verif.NanDiff
open Verif.Diff Verif.Eval

/-! ### Specification -/

/-- Some number of the atom is NaN. -/
def HasNan (a : NAtom) : Prop := none ∈ a.xyz ∨ a.occupancy = none ∨ none ∈ a.u

/-- An atom without NaN. -/
def lift (a : Atom) : NAtom :=
  ⟨a.atomtype, some a.x, some a.y, some a.z, some a.occupancy, a.anisotropy, a.uij.map some⟩

/-- An atom with its index. -/
def liftI (p : AtomIndex) : NAtomIndex := (lift p.1, p.2)

/-- The order puts neither of the two atoms before the other. -/
def Incomparable (a b : NAtom) : Prop := a.lt b = false ∧ b.lt a = false

/-- The sort is only known to reorder: with NaN the comparison is not an order, so nothing more can be expected. -/
structure Reorders (s : NSorter) : Prop where
  atom_perm : ∀ l, (s.byAtom l).Perm l
  index_perm : ∀ l, (s.byIndex l).Perm l

/-! ### Equality and order -/

theorem neq_iff (a b : Num) : neq a b = true ↔ a = b ∧ a ≠ none := by
  cases a <;> cases b <;> simp [neq]

theorem nequal_iff : ∀ l m : List Num, nequal l m = true ↔ l = m ∧ none ∉ l := by
  intro l
  induction l with
  | nil => intro m; cases m <;> simp [nequal]
  | cons a l ih =>
    intro m
    cases m with
    | nil => simp [nequal]
    | cons b m =>
      rw [nequal, Bool.and_eq_true, neq_iff, ih]
      simp only [List.cons.injEq, List.mem_cons, not_or]
      constructor
      · rintro ⟨⟨rfl, h⟩, rfl, h2⟩; exact ⟨⟨rfl, rfl⟩, fun e => h e.symm, h2⟩
      · rintro ⟨⟨rfl, rfl⟩, h, h2⟩; exact ⟨⟨rfl, fun e => h e.symm⟩, rfl, h2⟩

/-- **C80**: two atoms in different structures are equal exactly when they have the same values and none is NaN; in
particular an atom with NaN is not equal to its own copy. -/
theorem atoms_equal_iff (a b : NAtom) : a.beq b = true ↔ a = b ∧ ¬ HasNan a := by
  obtain ⟨t, x, y, z, o, f, u⟩ := a
  obtain ⟨t', x', y', z', o', f', u'⟩ := b
  simp only [NAtom.beq, Bool.and_eq_true, decide_eq_true_eq, nequal_iff, neq_iff, beq_iff_eq, HasNan, NAtom.xyz,
    NAtom.mk.injEq, not_or, List.cons.injEq]
  constructor
  · rintro ⟨⟨⟨⟨h1, ⟨h2, h3, h4, _⟩, h5⟩, h6, h7⟩, h8⟩, h9, h10⟩
    exact ⟨⟨h1, h2, h3, h4, h6, h8, h9⟩, h5, h7, h10⟩
  · rintro ⟨⟨h1, h2, h3, h4, h6, h8, h9⟩, h5, h7, h10⟩
    exact ⟨⟨⟨⟨h1, ⟨h2, h3, h4, trivial⟩, h5⟩, h6, h7⟩, h8⟩, h9, h10⟩

theorem nlt_some (a b : Rat) : nlt (some a) (some b) = decide (a < b) := rfl

theorem ncmpLoop_lift : ∀ l m : List Rat, ncmpLoop (l.map some) (m.map some) = cmpLoop l m := by
  intro l
  induction l with
  | nil => intro m; cases m <;> rfl
  | cons a l ih =>
    intro m
    cases m with
    | nil => rfl
    | cons b m =>
      simp only [List.map_cons, ncmpLoop, cmpLoop, nlt_some, decide_eq_true_eq, ih, gt_iff_lt]

theorem nequal_lift (l m : List Rat) : nequal (l.map some) (m.map some) = decide (l = m) := by
  rw [Bool.eq_iff_iff, nequal_iff, decide_eq_true_eq]
  constructor
  · rintro ⟨h, _⟩; exact (List.map_injective_iff.2 (Option.some_injective _)) h
  · rintro rfl; exact ⟨rfl, by simp⟩

theorem lt_lift (a b : Atom) : (lift a).lt (lift b) = a.lt b := by
  unfold NAtom.lt Atom.lt
  have h1 : ncmpLoop (lift a).xyz (lift b).xyz = cmpLoop a.xyz b.xyz := ncmpLoop_lift a.xyz b.xyz
  have h2 : ncmpLoop (lift a).u (lift b).u = cmpLoop a.uij b.uij := ncmpLoop_lift a.uij b.uij
  have h3 : nlt (lift a).occupancy (lift b).occupancy = decide (a.occupancy < b.occupancy) := rfl
  have h4 : nlt (lift b).occupancy (lift a).occupancy = decide (b.occupancy < a.occupancy) := rfl
  have h5 : (lift a).atomtype = a.atomtype := rfl
  have h6 : (lift b).atomtype = b.atomtype := rfl
  have h7 : (lift a).anisotropy = a.anisotropy := rfl
  have h8 : (lift b).anisotropy = b.anisotropy := rfl
  rw [h1, h2, h3, h4, h5, h6, h7, h8]
  simp only [decide_eq_true_eq, gt_iff_lt]
  cases cmpLoop a.xyz b.xyz <;> rfl

theorem beq_lift (a b : Atom) : (lift a).beq (lift b) = a.beq b := by
  unfold NAtom.beq Atom.beq
  have h1 : nequal (lift a).xyz (lift b).xyz = decide (a.xyz = b.xyz) := nequal_lift a.xyz b.xyz
  have h2 : nequal (lift a).u (lift b).u = decide (a.uij = b.uij) := nequal_lift a.uij b.uij
  rw [h1, h2]
  rfl

theorem nsideLoop_lift : ∀ (a0 a1 : List Atom) (i : Nat),
    nsideLoop i (a0.map lift) (a1.map lift) = sideLoop i a0 a1 := by
  intro a0
  induction a0 with
  | nil => intro a1 i; cases a1 <;> simp [nsideLoop, sideLoop]
  | cons a a0 ih =>
    intro a1 i
    cases a1 with
    | nil => simp [nsideLoop, sideLoop]
    | cons b a1 => simp only [List.map_cons, nsideLoop, sideLoop, beq_lift, ih]

theorem nsymDiff_lift (l0 l1 : List AtomIndex) :
    nsymDiff (l0.map liftI) (l1.map liftI) = (symDiff l0 l1).map liftI := by
  fun_induction symDiff l0 l1 with
  | case1 l => simp [nsymDiff]
  | case2 x xs => simp [nsymDiff]
  | case3 x xs y ys h ih =>
    rw [List.map_cons, List.map_cons, nsymDiff, if_pos (by rw [liftI, liftI, lt_lift]; exact h), ← List.map_cons, ih]
    rfl
  | case4 x xs y ys h h2 ih =>
    rw [List.map_cons, List.map_cons, nsymDiff, if_neg (by rw [liftI, liftI, lt_lift]; exact h),
      if_pos (by rw [liftI, liftI, lt_lift]; exact h2), ← List.map_cons, ih]
    rfl
  | case5 x xs y ys h h2 ih =>
    rw [List.map_cons, List.map_cons, nsymDiff, if_neg (by rw [liftI, liftI, lt_lift]; exact h),
      if_neg (by rw [liftI, liftI, lt_lift]; exact h2), ih]

theorem nindex_lift (a : List Atom) : nindex0 (a.map lift) = (index0 a).map liftI ∧
    nindex1 (a.map lift) = (index1 a).map liftI := by
  unfold nindex0 nindex1 index0 index1
  constructor <;>
  · rw [List.zipIdx_map, List.map_map, List.map_map]
    rfl

theorem nsplitDiff_lift (l : List AtomIndex) : nsplitDiff (l.map liftI) = splitDiff l := by
  unfold nsplitDiff splitDiff
  rw [List.filterMap_map, List.filterMap_map]
  rfl

/-- **C80**: without NaN the difference is the one of C09 and C10. -/
theorem without_nan (s : Sorter) (t : NSorter) (h1 : ∀ l, t.byAtom (l.map liftI) = (s.byAtom l).map liftI)
    (h2 : ∀ l, t.byIndex l = s.byIndex l) (a0 a1 : List Atom) :
    nanDiff t (a0.map lift) (a1.map lift) = atomicDiff s false true a0 a1 := by
  unfold nanDiff atomicDiff
  simp only [Bool.false_eq_true, if_false, Bool.not_true]
  rw [nsideLoop_lift, (nindex_lift a0).1, (nindex_lift a1).2, h1, h1, nsymDiff_lift, nsplitDiff_lift, h2, h2,
    List.length_map, List.length_map]

/-! ### Side by side -/

theorem nside_mem : ∀ (a0 a1 : List NAtom) (i k : Nat),
    (k ∈ (nsideLoop i a0 a1).1 ↔ i ≤ k ∧ ∃ a, a0[k - i]? = some a ∧ ∀ b, a1[k - i]? = some b → a.beq b = false) ∧
    (k ∈ (nsideLoop i a0 a1).2 ↔ i ≤ k ∧ ∃ b, a1[k - i]? = some b ∧ ∀ a, a0[k - i]? = some a → a.beq b = false) := by
  intro a0
  induction a0 with
  | nil =>
    intro a1 i k
    cases a1 with
    | nil => simp [nsideLoop]
    | cons b bs =>
      simp only [nsideLoop, List.not_mem_nil, List.getElem?_nil, List.mem_range'_1, false_iff]
      refine ⟨by simp, ⟨fun h => ⟨h.1, ?_⟩, ?_⟩⟩
      · have hb : k - i < (b :: bs).length := by omega
        exact ⟨_, List.getElem?_eq_getElem hb, by simp⟩
      · rintro ⟨h, c, hc, -⟩
        have := (List.getElem?_eq_some_iff.1 hc).1
        omega
  | cons a as ih =>
    intro a1 i k
    cases a1 with
    | nil =>
      simp only [nsideLoop, List.not_mem_nil, List.getElem?_nil, List.mem_range'_1, false_iff]
      refine ⟨⟨fun h => ⟨h.1, ?_⟩, ?_⟩, by simp⟩
      · have hb : k - i < (a :: as).length := by omega
        exact ⟨_, List.getElem?_eq_getElem hb, by simp⟩
      · rintro ⟨h, c, hc, -⟩
        have := (List.getElem?_eq_some_iff.1 hc).1
        omega
    | cons b bs =>
      obtain ⟨i1, i2⟩ := ih bs (i + 1) k
      rcases Nat.lt_trichotomy k i with hk | rfl | hk
      · have n1 : k ∉ (nsideLoop (i + 1) as bs).1 := fun h => by have := (i1.1 h).1; omega
        have n2 : k ∉ (nsideLoop (i + 1) as bs).2 := fun h => by have := (i2.1 h).1; omega
        have hki : k ≠ i := by omega
        simp only [nsideLoop]
        constructor <;>
        · split <;> simp [n1, n2, hki] <;> omega
      · have n1 : k ∉ (nsideLoop (k + 1) as bs).1 := fun h => by have := (i1.1 h).1; omega
        have n2 : k ∉ (nsideLoop (k + 1) as bs).2 := fun h => by have := (i2.1 h).1; omega
        simp only [nsideLoop, Nat.sub_self, List.getElem?_cons_zero, Option.some.injEq]
        cases hb : a.beq b <;> simp [n1, n2, hb]
      · have e : k - i = (k - (i + 1)) + 1 := by omega
        have hki : k ≠ i := by omega
        have hle : i + 1 ≤ k ↔ i ≤ k := by omega
        rw [e, List.getElem?_cons_succ, List.getElem?_cons_succ, ← hle, ← i1, ← i2]
        simp only [nsideLoop]
        constructor <;>
        · split <;> simp [hki]

/-- **C80**: a side-by-side difference lists every site whose atom has NaN in either structure, and the sites that are
not listed have equal atoms. -/
theorem sideBySide_lists_nan (s : NSorter) (a0 a1 : List NAtom) (hm : (nanDiff s a0 a1).method = .sideBySide) (k : Nat) :
    ((∃ a, a0[k]? = some a ∧ HasNan a) → k ∈ (nanDiff s a0 a1).pop0) ∧
    ((∃ b, a1[k]? = some b ∧ HasNan b) → k ∈ (nanDiff s a0 a1).add1) ∧
    (k < a0.length → k ∉ (nanDiff s a0 a1).pop0 → ∃ a, a0[k]? = some a ∧ a1[k]? = some a ∧ ¬ HasNan a) ∧
    (k < a1.length → k ∉ (nanDiff s a0 a1).add1 → ∃ a, a0[k]? = some a ∧ a1[k]? = some a ∧ ¬ HasNan a) := by
  have e : (nanDiff s a0 a1).pop0 = (nsideLoop 0 a0 a1).1 ∧ (nanDiff s a0 a1).add1 = (nsideLoop 0 a0 a1).2 := by
    unfold nanDiff at hm ⊢
    dsimp only at hm ⊢
    split
    · exact ⟨rfl, rfl⟩
    · rename_i h; rw [if_neg h] at hm; cases hm
  obtain ⟨m0, m1⟩ := nside_mem a0 a1 0 k
  rw [e.1, e.2, m0, m1]
  simp only [Nat.zero_le, true_and, Nat.sub_zero]
  refine ⟨?_, ?_, ?_, ?_⟩
  · rintro ⟨a, ha, hn⟩
    refine ⟨a, ha, fun b _ => ?_⟩
    rw [← Bool.not_eq_true, atoms_equal_iff]
    exact fun h => h.2 hn
  · rintro ⟨b, hb, hn⟩
    refine ⟨b, hb, fun a _ => ?_⟩
    rw [← Bool.not_eq_true, atoms_equal_iff]
    rintro ⟨rfl, h⟩
    exact h hn
  · intro hk hnot
    have ha := List.getElem?_eq_getElem hk
    by_contra hc
    apply hnot
    refine ⟨_, ha, fun b hb => ?_⟩
    rw [← Bool.not_eq_true, atoms_equal_iff]
    rintro ⟨h1, h2⟩
    exact hc ⟨_, ha, h1 ▸ hb, h2⟩
  · intro hk hnot
    have hb := List.getElem?_eq_getElem hk
    by_contra hc
    apply hnot
    refine ⟨_, hb, fun a ha => ?_⟩
    rw [← Bool.not_eq_true, atoms_equal_iff]
    rintro ⟨h1, h2⟩
    exact hc ⟨_, ha, by rw [hb, h1], h2⟩

/-- **C80**: a structure with NaN in `k` sites is different from its own copy: the copy allows a fast update side by
side exactly when these sites are few enough, and only these are recomputed. -/
theorem copy_with_nan (s : NSorter) (a : List NAtom) (hm : (nanDiff s a a).method = .sideBySide) (k : Nat) :
    k ∈ (nanDiff s a a).pop0 ↔ ∃ x, a[k]? = some x ∧ HasNan x := by
  obtain ⟨h1, _, h3, _⟩ := sideBySide_lists_nan s a a hm k
  refine ⟨fun hk => ?_, h1⟩
  have e : (nanDiff s a a).pop0 = (nsideLoop 0 a a).1 := by
    unfold nanDiff at hm ⊢
    dsimp only at hm ⊢
    split
    · rfl
    · rename_i h; rw [if_neg h] at hm; cases hm
  rw [e, (nside_mem a a 0 k).1] at hk
  obtain ⟨_, x, hx, hb⟩ := hk
  refine ⟨x, hx, ?_⟩
  by_contra hc
  have := hb x hx
  rw [(atoms_equal_iff x x).2 ⟨rfl, hc⟩] at this
  cases this

/-! ### Sorted -/

theorem nsymDiff_pairs (l0 l1 : List NAtomIndex) :
    ∃ (M : List (NAtomIndex × NAtomIndex)) (o0 o1 : List NAtomIndex),
      l0.Perm (M.map Prod.fst ++ o0) ∧ l1.Perm (M.map Prod.snd ++ o1) ∧ (nsymDiff l0 l1).Perm (o0 ++ o1) ∧
      ∀ p ∈ M, Incomparable p.1.1 p.2.1 := by
  fun_induction nsymDiff l0 l1 with
  | case1 l => exact ⟨[], [], l, by simp, by simp, by simp, by simp⟩
  | case2 x xs => exact ⟨[], x :: xs, [], by simp, by simp, by simp, by simp⟩
  | case3 x xs y ys h ih =>
    obtain ⟨M, o0, o1, h0, h1, h2, h3⟩ := ih
    exact ⟨M, x :: o0, o1, (h0.cons x).trans List.perm_middle.symm, h1, h2.cons x, h3⟩
  | case4 x xs y ys h h' ih =>
    obtain ⟨M, o0, o1, h0, h1, h2, h3⟩ := ih
    exact ⟨M, o0, y :: o1, h0, (h1.cons y).trans List.perm_middle.symm, (h2.cons y).trans List.perm_middle.symm, h3⟩
  | case5 x xs y ys h h' ih =>
    obtain ⟨M, o0, o1, h0, h1, h2, h3⟩ := ih
    refine ⟨(x, y) :: M, o0, o1, h0.cons x, h1.cons y, h2, ?_⟩
    intro p hp
    rcases List.mem_cons.1 hp with rfl | hp
    · exact ⟨by simpa using h, by simpa using h'⟩
    · exact h3 p hp

/-- **C80**: however NaN confuses the sort, a sorted difference has only valid sites, none twice, and the sites that are
not listed form pairs, one of the old and one of the new structure, that the order cannot tell apart. -/
theorem sorted_pairs (s : NSorter) (hs : Reorders s) (a0 a1 : List NAtom)
    (hm : (nanDiff s a0 a1).method = .sorted) :
    ∃ M : List (Nat × Nat), (M.map Prod.fst ++ (nanDiff s a0 a1).pop0).Perm (List.range a0.length) ∧
      (M.map Prod.snd ++ (nanDiff s a0 a1).add1).Perm (List.range a1.length) ∧
      ∀ p ∈ M, ∃ a b, a0[p.1]? = some a ∧ a1[p.2]? = some b ∧ Incomparable a b := by
  have e : (nanDiff s a0 a1).pop0
        = s.byIndex (nsplitDiff (nsymDiff (s.byAtom (nindex0 a0)) (s.byAtom (nindex1 a1)))).1 ∧
      (nanDiff s a0 a1).add1
        = s.byIndex (nsplitDiff (nsymDiff (s.byAtom (nindex0 a0)) (s.byAtom (nindex1 a1)))).2 := by
    unfold nanDiff at hm ⊢
    dsimp only at hm ⊢
    split
    · rename_i h; rw [if_pos h] at hm; cases hm
    · exact ⟨rfl, rfl⟩
  rw [e.1, e.2]
  obtain ⟨M, o0, o1, h0, h1, h2, h3⟩ := nsymDiff_pairs (s.byAtom (nindex0 a0)) (s.byAtom (nindex1 a1))
  have m0 : ∀ q ∈ M.map Prod.fst ++ o0, q.2 ≥ 0 ∧ a0[q.2.toNat]? = some q.1 := by
    intro q hq
    have : q ∈ nindex0 a0 := (hs.atom_perm _).subset (h0.symm.subset hq)
    obtain ⟨r, hr, rfl⟩ := List.mem_map.1 this
    exact ⟨by simp, by simpa using List.mem_zipIdx_iff_getElem?.1 hr⟩
  have m1 : ∀ q ∈ M.map Prod.snd ++ o1, ¬ q.2 ≥ 0 ∧ a1[(-1 * q.2 - 1).toNat]? = some q.1 := by
    intro q hq
    have : q ∈ nindex1 a1 := (hs.atom_perm _).subset (h1.symm.subset hq)
    obtain ⟨r, hr, rfl⟩ := List.mem_map.1 this
    refine ⟨by dsimp only; omega, ?_⟩
    have e : (-1 * (-1 - (r.2 : Int)) - 1).toNat = r.2 := by omega
    dsimp only
    rw [e]
    exact List.mem_zipIdx_iff_getElem?.1 hr
  have hpop : (s.byIndex (nsplitDiff (nsymDiff (s.byAtom (nindex0 a0)) (s.byAtom (nindex1 a1)))).1).Perm
      (o0.map fun q => q.2.toNat) := by
    refine (hs.index_perm _).trans ((h2.filterMap _).trans (List.Perm.of_eq ?_))
    rw [List.filterMap_append, filterMap_all o0 _ (fun q => q.2.toNat), filterMap_none o1]
    · simp
    · intro q hq; rw [if_neg (m1 q (by simp [hq])).1]
    · intro q hq; rw [if_pos (m0 q (by simp [hq])).1]
  have hadd : (s.byIndex (nsplitDiff (nsymDiff (s.byAtom (nindex0 a0)) (s.byAtom (nindex1 a1)))).2).Perm
      (o1.map fun q => (-1 * q.2 - 1).toNat) := by
    refine (hs.index_perm _).trans ((h2.filterMap _).trans (List.Perm.of_eq ?_))
    rw [List.filterMap_append, filterMap_none o0, filterMap_all o1 _ (fun q => (-1 * q.2 - 1).toNat)]
    · simp
    · intro q hq; rw [if_neg (m1 q (by simp [hq])).1]
    · intro q hq; rw [if_pos (m0 q (by simp [hq])).1]
  have z0 : (nindex0 a0).map (fun q => q.2.toNat) = List.range a0.length := by
    unfold nindex0
    rw [List.map_map, List.range_eq_range', ← List.zipIdx_map_snd 0 a0]
    apply List.map_congr_left
    intro q _; simp
  have z1 : (nindex1 a1).map (fun q => (-1 * q.2 - 1).toNat) = List.range a1.length := by
    unfold nindex1
    rw [List.map_map, List.range_eq_range', ← List.zipIdx_map_snd 0 a1]
    apply List.map_congr_left
    intro q _
    simp
  refine ⟨M.map fun p => (p.1.2.toNat, (-1 * p.2.2 - 1).toNat), ?_, ?_, ?_⟩
  · rw [List.map_map, ← z0]
    refine (List.Perm.append_left _ hpop).trans ?_
    have := (((hs.atom_perm (nindex0 a0)).symm.trans h0).map fun q => q.2.toNat).symm
    rw [List.map_append, List.map_map] at this
    exact this
  · rw [List.map_map, ← z1]
    refine (List.Perm.append_left _ hadd).trans ?_
    have := (((hs.atom_perm (nindex1 a1)).symm.trans h1).map fun q => (-1 * q.2 - 1).toNat).symm
    rw [List.map_append, List.map_map] at this
    exact this
  · intro p hp
    obtain ⟨q, hq, rfl⟩ := List.mem_map.1 hp
    exact ⟨q.1.1, q.2.1, (m0 q.1 (List.mem_append_left _ (List.mem_map.2 ⟨q, hq, rfl⟩))).2,
      (m1 q.2 (List.mem_append_left _ (List.mem_map.2 ⟨q, hq, rfl⟩))).2,
      h3 q hq⟩

/-! ### What goes wrong -/

theorem nlt_none (a : Num) : nlt none a = false ∧ nlt a none = false := by
  cases a <;> exact ⟨rfl, rfl⟩

/-- The atom after some of its numbers became NaN. -/
def NanCopy (a b : NAtom) : Prop :=
  b.atomtype = a.atomtype ∧ b.anisotropy = a.anisotropy ∧ (b.x = a.x ∨ b.x = none) ∧ (b.y = a.y ∨ b.y = none) ∧
  (b.z = a.z ∨ b.z = none) ∧ (b.occupancy = a.occupancy ∨ b.occupancy = none) ∧
  List.Forall₂ (fun v w => w = v ∨ w = none) a.u b.u

theorem nlt_copy {a b : Num} (h : b = a ∨ b = none) : nlt a b = false ∧ nlt b a = false := by
  rcases h with rfl | rfl
  · cases b <;> simp [nlt]
  · exact ⟨(nlt_none a).2, (nlt_none a).1⟩

theorem ncmp_copy {l m : List Num} (h : List.Forall₂ (fun v w => w = v ∨ w = none) l m) :
    ncmpLoop l m = none ∧ ncmpLoop m l = none := by
  induction h with
  | nil => exact ⟨rfl, rfl⟩
  | cons h _ ih => simp [ncmpLoop, nlt_copy h, ih]

/-- An atom and the same atom with some numbers NaN cannot be told apart by the order. -/
theorem nanCopy_incomparable {a b : NAtom} (h : NanCopy a b) : Incomparable a b := by
  obtain ⟨h1, h2, hx, hy, hz, ho, hu⟩ := h
  have hxyz : List.Forall₂ (fun v w => w = v ∨ w = none) a.xyz b.xyz := by
    unfold NAtom.xyz
    exact .cons hx (.cons hy (.cons hz .nil))
  unfold Incomparable NAtom.lt
  rw [h1, h2, (ncmp_copy hxyz).1, (ncmp_copy hxyz).2, (ncmp_copy hu).1, (ncmp_copy hu).2, (nlt_copy ho).1,
    (nlt_copy ho).2]
  simp

/-- The numbers of an atom become NaN and there is only one atom: the difference is empty and allows a fast update. -/
theorem moved_to_nan_not_noticed_bug (s : NSorter) (hs : Reorders s) (a b : NAtom) (h : NanCopy a b) (hn : HasNan b) :
    nanDiff s [a] [b] = ⟨1, 1, [], [], .sorted⟩ ∧ nanDiff s [b] [a] = ⟨1, 1, [], [], .sorted⟩ ∧
    (⟨1, 1, [], [], .sorted⟩ : SD).allowsFast = true := by
  obtain ⟨i1, i2⟩ := nanCopy_incomparable h
  have e1 : a.beq b = false := by
    rw [← Bool.not_eq_true, atoms_equal_iff]; rintro ⟨rfl, h2⟩; exact h2 hn
  have e2 : b.beq a = false := by
    rw [← Bool.not_eq_true, atoms_equal_iff]; exact fun h2 => h2.2 hn
  have p1 : ∀ x, s.byAtom [x] = [x] := fun x => List.perm_singleton.1 (hs.atom_perm [x])
  have p2 : s.byIndex [] = [] := List.Perm.eq_nil (hs.index_perm [])
  refine ⟨?_, ?_, by decide⟩
  · simp [nanDiff, nsideLoop, e1, SD.allowsFast, nindex0, nindex1, p1, nsymDiff, i1, i2, nsplitDiff, p2]
  · simp [nanDiff, nsideLoop, e2, SD.allowsFast, nindex0, nindex1, p1, nsymDiff, i1, i2, nsplitDiff, p2]

/-- With an empty difference the fast update makes no calls, so the old result stays. -/
theorem empty_difference_keeps_result {B : Type} (gen0 gen1 : Gen B) (full : Bool) (use0 use1 : Nat → Nat → Bool)
    (n0 n1 : Nat) : fastTrace gen0 gen1 full use0 use1 n0 n1 [] [] 0 1 = ([], []) := by
  simp [fastTrace, removeTrace, addTrace, removeLoop, addLoop]

/-- A reordering sort that does nothing. -/
def idSorter : NSorter := ⟨fun l => l, fun l => l⟩

/-- An atom of the examples. -/
def exN (t : String) (x : Num) : NAtom := ⟨t, x, some 0, some 0, some 1, false, List.replicate 9 (some 0)⟩

/-- Being indistinguishable is not transitive with NaN, so `std::sort` and `std::set_symmetric_difference` are called
outside their preconditions. -/
theorem incomparable_not_transitive_bug : Incomparable (exN "C" (some 1)) (exN "C" none) ∧
    Incomparable (exN "C" none) (exN "C" (some 2)) ∧ (exN "C" (some 1)).lt (exN "C" (some 2)) = true := by
  refine ⟨?_, ?_, ?_⟩
  · exact ⟨by decide +kernel, by decide +kernel⟩
  · exact ⟨by decide +kernel, by decide +kernel⟩
  · decide +kernel

example : Reorders idSorter := ⟨fun _ => List.Perm.refl _, fun _ => List.Perm.refl _⟩

/-- Moving the only atom to NaN and back is not noticed. -/
example : nanDiff idSorter [exN "C" (some 1)] [exN "C" none] = ⟨1, 1, [], [], .sorted⟩ ∧
    nanDiff idSorter [exN "C" none] [exN "C" (some 1)] = ⟨1, 1, [], [], .sorted⟩ := by
  have hn : NanCopy (exN "C" (some 1)) (exN "C" none) := by
    refine ⟨rfl, rfl, Or.inr rfl, Or.inl rfl, Or.inl rfl, Or.inl rfl, ?_⟩
    simp [exN, List.forall₂_same]
  have := moved_to_nan_not_noticed_bug idSorter ⟨fun _ => List.Perm.refl _, fun _ => List.Perm.refl _⟩ _ _ hn
    (Or.inl (by decide))
  exact ⟨this.1, this.2.1⟩

/-- With four atoms the change is noticed side by side. -/
example : nanDiff idSorter [exN "C" (some 1), exN "C" (some 2), exN "C" (some 3), exN "C" (some 4)]
    [exN "C" (some 1), exN "C" none, exN "C" (some 3), exN "C" (some 4)] = ⟨4, 4, [1], [1], .sideBySide⟩ := by
  decide +kernel

end Verif.NanDiff
