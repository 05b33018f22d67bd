import Verif.Props.KindDiff
/-! Calculators whose contributions are sums over pairs of atoms meet `Lawful`, also when the list of bonds depends on the structure. -/
namespace Verif.KindDiff
open Verif.Eval Verif.Diff Verif.History

variable {L O : Type} [DecidableEq L] [DecidableEq O] {C S B G : Type} [AddCommGroup G]

/-- Contributions of a pair of sites: `P` of the configuration, the kind of structure, whether the two sites are the same, and the two atoms,
when the sites exist; for configurations with `R`. -/
theorem lawful_of_pairs_on (R : C → Prop) (stru : S → Stru L O) (K : Calc C S B G)
    (hcls : ∀ x y, (K.diff x y).allowsFast = true → SameClass (stru x).kind (stru y).kind) (s : Sorter)
    (hs : SortSpec s)
    (hdiff : ∀ x y, K.diff x y = diff s false (stru x) (stru y)) (hcount : ∀ x, K.count x = (stru x).atoms.length)
    (bonds : C → S → ℕ → ℕ → List B) (hgen : ∀ c x, R c → GenSpec (K.gen c x) (bonds c x))
    (use : C → ℕ → ℕ → Option Atom → Option Atom → Bool)
    (huse : ∀ c x i j, K.use c x i j = use c i j (stru x).atoms[i]? (stru x).atoms[j]?)
    (hus : ∀ c i j a b, use c i j a b = use c j i b a)
    (hidx : ∀ c, (K.fixedIdx || K.hasPairMask c) = false → ∀ i j i' j' a b, use c i j a b = use c i' j' a b)
    (P : C → Kind L O → Bool → Option Atom → Option Atom → G)
    (hP : ∀ c x i j, i < (stru x).atoms.length → j < (stru x).atoms.length →
      ((bonds c x i j).map (K.con c x i j)).sum = P c (stru x).kind (decide (i = j)) (stru x).atoms[i]? (stru x).atoms[j]?)
    (hout : ∀ c x i j, ¬ (i < (stru x).atoms.length ∧ j < (stru x).atoms.length) → bonds c x i j = [])
    (hsym : ∀ c x i j, i < (stru x).atoms.length → j < (stru x).atoms.length →
      P c (stru x).kind (decide (i = j)) (stru x).atoms[i]? (stru x).atoms[j]? = P c (stru x).kind (decide (j = i)) (stru x).atoms[j]? (stru x).atoms[i]?)
    (hcustom : ∀ s c, R c → (K.custom s c).2 = false → (K.custom s c).1 = c) (hkeep : ∀ s c, R (K.custom s c).1) :
    LawfulOn K R ∧ ∀ c x, R c → basicValue K c x = ∑ i ∈ Finset.range (stru x).atoms.length, ∑ j ∈ Finset.range (stru x).atoms.length,
      if K.use c x i j = true then P c (stru x).kind (decide (i = j)) (stru x).atoms[i]? (stru x).atoms[j]? else 0 := by
  have hsy : ∀ c x, K.fullSum = false → ∀ i j, K.use c x i j = K.use c x j i ∧
      ((bonds c x i j).map (K.con c x i j)).sum = ((bonds c x j i).map (K.con c x j i)).sum := by
    intro c x _ i j
    refine ⟨by rw [huse, huse, hus], ?_⟩
    by_cases h : i < (stru x).atoms.length ∧ j < (stru x).atoms.length
    · rw [hP c x i j h.1 h.2, hP c x j i h.2 h.1, hsym c x i j h.1 h.2]
    · rw [hout c x i j h, hout c x j i fun h' => h ⟨h'.2, h'.1⟩]
      rfl
  refine ⟨⟨?_, hcustom, hkeep⟩, ?_⟩
  · intro c x y hRc hf hm
    have hcl := hcls x y hf
    rw [hdiff] at hf
    obtain ⟨hk, hd⟩ := diff_kind_partial s (stru x) (stru y) hcl hf
    have hdiff' : K.diff x y = atomicDiff s false true (stru x).atoms (stru y).atoms := by rw [hdiff]; exact hd
    rw [hd] at hf
    unfold basicValue
    rw [hdiff'] at hm ⊢
    rw [hcount, hcount]
    cases hmm : (atomicDiff s false true (stru x).atoms (stru y).atoms).method with
    | none => rw [diff_none s false true _ _ hmm] at hf; cases hf
    | sideBySide =>
      obtain ⟨v0, v1, _, _⟩ := diff_sideBySide s false true (stru x).atoms (stru y).atoms (by intro h; cases h) hmm
      have hr := fun i => diff_sideBySide_rest s false true (stru x).atoms (stru y).atoms (by intro h; cases h) hmm i
      refine fast_update_sideBySide (K.con c x) (K.con c y) (K.gen c x) (K.gen c y) (bonds c x) (bonds c y) (hgen c x hRc) (hgen c y hRc)
        K.fullSum (K.use c x) (K.use c y) (hsy c x) (hsy c y) _ _ _ _ v0 v1 (fun i => (hr i).1) ?_ true true
      intro i j hi hj hip hjp
      obtain ⟨a, e0, e1⟩ := (hr i).2 ⟨hi, hip⟩
      obtain ⟨b, e2, e3⟩ := (hr j).2 ⟨hj, hjp⟩
      have l1 := (hr i).1.1 ⟨hi, hip⟩
      have l2 := (hr j).1.1 ⟨hj, hjp⟩
      rw [hP c x i j hi hj, hP c y i j l1.1 l2.1, huse, huse, e0, e1, e2, e3, hk]
      exact ⟨rfl, rfl⟩
    | sorted =>
      have hx : (K.fixedIdx || K.hasPairMask c) = false := by
        cases hxx : (K.fixedIdx || K.hasPairMask c) with
        | false => rfl
        | true => have := hm hxx; rw [hmm] at this; cases this
      obtain ⟨v0, v1, hp, _⟩ := diff_sorted s hs false true (stru x).atoms (stru y).atoms hmm
      refine fast_update_sorted (K.con c x) (K.con c y) (K.gen c x) (K.gen c y) (bonds c x) (bonds c y) (hgen c x hRc) (hgen c y hRc)
        K.fullSum (K.use c x) (K.use c y) (hsy c x) (hsy c y) _ _ _ _ v0 v1 (fun k => (stru x).atoms[k]?) (fun k => (stru y).atoms[k]?)
        (fun a b => if use c 0 0 a b = true then P c (stru x).kind false a b else 0)
        (fun a => if use c 0 0 a a = true then P c (stru x).kind true a a else 0) ?_ ?_ hp true true
      · intro i j hi hj
        rw [hP c x i j hi hj, huse, hidx c hx i j 0 0]
        by_cases hij : i = j
        · subst hij; simp
        · rw [if_neg hij, decide_eq_false hij]
      · intro i j hi hj
        rw [hP c y i j hi hj, huse, hidx c hx i j 0 0, ← hk]
        by_cases hij : i = j
        · subst hij; simp
        · rw [if_neg hij, decide_eq_false hij]
  · intro c x hRc
    unfold basicValue
    rw [basic_value (K.con c x) true (K.gen c x) (bonds c x) (hgen c x hRc) K.fullSum (K.use c x) (hsy c x), hcount]
    unfold pairSum
    refine Finset.sum_congr rfl fun i hi => Finset.sum_congr rfl fun j hj => ?_
    rw [Finset.mem_range] at hi hj
    rw [hP c x i j hi hj]

/-- Contributions of a pair of sites: `P` of the configuration, the kind of structure, whether the two sites are the same, and the two atoms,
when the sites exist. -/
theorem lawful_of_pairs_diag (stru : S → Stru L O) (K : Calc C S B G)
    (hcls : ∀ x y, (K.diff x y).allowsFast = true → SameClass (stru x).kind (stru y).kind) (s : Sorter)
    (hs : SortSpec s)
    (hdiff : ∀ x y, K.diff x y = diff s false (stru x) (stru y)) (hcount : ∀ x, K.count x = (stru x).atoms.length)
    (bonds : C → S → ℕ → ℕ → List B) (hgen : ∀ c x, GenSpec (K.gen c x) (bonds c x))
    (use : C → ℕ → ℕ → Option Atom → Option Atom → Bool)
    (huse : ∀ c x i j, K.use c x i j = use c i j (stru x).atoms[i]? (stru x).atoms[j]?)
    (hus : ∀ c i j a b, use c i j a b = use c j i b a)
    (hidx : ∀ c, (K.fixedIdx || K.hasPairMask c) = false → ∀ i j i' j' a b, use c i j a b = use c i' j' a b)
    (P : C → Kind L O → Bool → Option Atom → Option Atom → G)
    (hP : ∀ c x i j, i < (stru x).atoms.length → j < (stru x).atoms.length →
      ((bonds c x i j).map (K.con c x i j)).sum = P c (stru x).kind (decide (i = j)) (stru x).atoms[i]? (stru x).atoms[j]?)
    (hout : ∀ c x i j, ¬ (i < (stru x).atoms.length ∧ j < (stru x).atoms.length) → bonds c x i j = [])
    (hsym : ∀ c x i j, i < (stru x).atoms.length → j < (stru x).atoms.length →
      P c (stru x).kind (decide (i = j)) (stru x).atoms[i]? (stru x).atoms[j]? = P c (stru x).kind (decide (j = i)) (stru x).atoms[j]? (stru x).atoms[i]?)
    (hcustom : ∀ s c, (K.custom s c).2 = false → (K.custom s c).1 = c) (hclose : ∀ v, K.close v v = true) :
    Lawful K ∧ ∀ c x, basicValue K c x = ∑ i ∈ Finset.range (stru x).atoms.length, ∑ j ∈ Finset.range (stru x).atoms.length,
      if K.use c x i j = true then P c (stru x).kind (decide (i = j)) (stru x).atoms[i]? (stru x).atoms[j]? else 0 := by
  obtain ⟨h1, h2⟩ := lawful_of_pairs_on (fun _ => True) stru K hcls s hs hdiff hcount bonds (fun c x _ => hgen c x) use huse hus hidx P hP hout hsym
    (fun s c _ => hcustom s c) fun _ _ => trivial
  exact ⟨⟨fun c s0 s1 => h1.fast c s0 s1 trivial, hcustom, hclose⟩, fun c x => h2 c x trivial⟩

/-- Contributions of a pair of sites: `P` of the configuration, the kind of structure and the two atoms, when the sites exist. -/
theorem lawful_of_pairs (stru : S → Stru L O) (K : Calc C S B G)
    (hcls : ∀ x y, (K.diff x y).allowsFast = true → SameClass (stru x).kind (stru y).kind) (s : Sorter)
    (hs : SortSpec s)
    (hdiff : ∀ x y, K.diff x y = diff s false (stru x) (stru y)) (hcount : ∀ x, K.count x = (stru x).atoms.length)
    (bonds : C → S → ℕ → ℕ → List B) (hgen : ∀ c x, GenSpec (K.gen c x) (bonds c x))
    (use : C → ℕ → ℕ → Option Atom → Option Atom → Bool)
    (huse : ∀ c x i j, K.use c x i j = use c i j (stru x).atoms[i]? (stru x).atoms[j]?)
    (hus : ∀ c i j a b, use c i j a b = use c j i b a)
    (hidx : ∀ c, (K.fixedIdx || K.hasPairMask c) = false → ∀ i j i' j' a b, use c i j a b = use c i' j' a b)
    (P : C → Kind L O → Option Atom → Option Atom → G)
    (hP : ∀ c x i j, i < (stru x).atoms.length → j < (stru x).atoms.length →
      ((bonds c x i j).map (K.con c x i j)).sum = P c (stru x).kind (stru x).atoms[i]? (stru x).atoms[j]?)
    (hout : ∀ c x i j, ¬ (i < (stru x).atoms.length ∧ j < (stru x).atoms.length) → bonds c x i j = [])
    (hsym : ∀ c x i j, i < (stru x).atoms.length → j < (stru x).atoms.length →
      P c (stru x).kind (stru x).atoms[i]? (stru x).atoms[j]? = P c (stru x).kind (stru x).atoms[j]? (stru x).atoms[i]?)
    (hcustom : ∀ s c, (K.custom s c).2 = false → (K.custom s c).1 = c) (hclose : ∀ v, K.close v v = true) :
    Lawful K ∧ ∀ c x, basicValue K c x = ∑ i ∈ Finset.range (stru x).atoms.length, ∑ j ∈ Finset.range (stru x).atoms.length,
      if K.use c x i j = true then P c (stru x).kind (stru x).atoms[i]? (stru x).atoms[j]? else 0 :=
  lawful_of_pairs_diag stru K hcls s hs hdiff hcount bonds hgen use huse hus hidx (fun c k _ a b => P c k a b) hP hout hsym hcustom hclose

end Verif.KindDiff
