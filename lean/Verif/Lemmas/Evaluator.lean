import Verif.Model.Evaluator
import Mathlib.Data.List.Basic
import Mathlib.Data.List.Range
import Mathlib.Data.List.Perm.Basic
import Mathlib.Data.Int.ModEq
import Mathlib.Tactic.Ring
import Mathlib.Tactic.Linarith
import Mathlib.Algebra.BigOperators.Group.List.Basic
/-! Helper lemmas for the evaluator traces: chopping of lists and closed forms of the loops. -/
namespace Verif.Eval

variable {B : Type} {α : Type}

/-- Elements at positions `p` with `n + p` divisible by `ncpu`. -/
def chop (ncpu : Int) : Int → List α → List α
  | _, [] => []
  | n, x :: xs => if skips n ncpu then chop ncpu (n + 1) xs else x :: chop ncpu (n + 1) xs

theorem skips_eq (n ncpu : Int) : skips n ncpu = !decide (ncpu ∣ n) := by
  unfold skips
  by_cases h : ncpu ∣ n
  · simp [h, Int.tmod_eq_zero_of_dvd h]
  · have : n.tmod ncpu ≠ 0 := fun h' => h (Int.dvd_of_tmod_eq_zero h')
    simp [h, this]

theorem chop_one (n : Int) (l : List α) : chop 1 n l = l := by
  induction l generalizing n with
  | nil => rfl
  | cons x xs ih => simp [chop, skips_eq, ih]

theorem chop_append (ncpu n : Int) (l₁ l₂ : List α) :
    chop ncpu n (l₁ ++ l₂) = chop ncpu n l₁ ++ chop ncpu (n + l₁.length) l₂ := by
  induction l₁ generalizing n with
  | nil => simp [chop]
  | cons x xs ih =>
    have e : n + 1 + (xs.length : Int) = n + ((xs.length : Int) + 1) := by ring
    simp only [List.cons_append, chop, ih, List.length_cons, Nat.cast_add, Nat.cast_one, e]
    split <;> simp

theorem chop_map {β : Type} (ncpu n : Int) (f : α → β) (l : List α) :
    chop ncpu n (l.map f) = (chop ncpu n l).map f := by
  induction l generalizing n with
  | nil => rfl
  | cons x xs ih => simp only [List.map_cons, chop, ih]; split <;> simp

/-- Exactly one of `m` consecutive integers is divisible by `m`. -/
theorem exists_unique_dvd (m : Nat) (hm : 0 < m) (n : Int) :
    ∃ k < m, ∀ k' < m, ((m : Int) ∣ n + k' ↔ k' = k) := by
  have hm' : (0 : Int) < m := by exact_mod_cast hm
  refine ⟨((-n) % m).toNat, ?_, ?_⟩
  · have h1 := Int.emod_nonneg (-n) (by omega : (m : Int) ≠ 0)
    have h2 := Int.emod_lt_of_pos (-n) hm'
    omega
  · intro k' hk'
    have h1 := Int.emod_nonneg (-n) (by omega : (m : Int) ≠ 0)
    have h2 := Int.emod_lt_of_pos (-n) hm'
    have h3 := Int.emod_add_mul_ediv (-n) m
    constructor
    · rintro ⟨q, hq⟩
      have hk : (k' : Int) = (-n) % m := by
        have : (k' : Int) ≡ -n [ZMOD m] := by
          refine (Int.modEq_iff_dvd).2 ⟨-q, ?_⟩
          linarith
        have h4 := this.eq
        rw [Int.emod_eq_of_lt (by omega) (by omega)] at h4
        exact h4
      omega
    · intro hk
      subst hk
      refine ⟨-((-n) / m), ?_⟩
      rw [Int.toNat_of_nonneg h1]
      have := h3
      rw [mul_neg]
      linarith

theorem flatMap_range_select (m : Nat) (k : Nat) (hk : k < m) (f g : Nat → List α)
    (x : α) (h : ∀ k' < m, f k' = if k' = k then x :: g k' else g k') :
    ((List.range m).flatMap f).Perm (x :: (List.range m).flatMap g) := by
  induction m with
  | zero => omega
  | succ m ih =>
    simp only [List.range_succ, List.flatMap_append, List.flatMap_cons, List.flatMap_nil,
      List.append_nil]
    by_cases hkm : k = m
    · subst hkm
      have h1 : f k = x :: g k := by rw [h k (by omega)]; simp
      have h2 : (List.range k).flatMap f = (List.range k).flatMap g := by
        apply List.flatMap_congr
        intro a ha
        have ha' := List.mem_range.1 ha
        rw [h a (by omega)]
        have : a ≠ k := by omega
        simp [this]
      rw [h1, h2]
      exact List.perm_middle
    · have h1 : f m = g m := by
        rw [h m (by omega)]
        have : m ≠ k := fun h => hkm h.symm
        simp [this]
      rw [h1]
      have := ih (by omega) (fun k' hk' => h k' (by omega))
      exact this.append_right (g m)

/-- The jobs `0 … m-1` together keep every element exactly once. -/
theorem chop_partition (m : Nat) (hm : 0 < m) (n : Int) (l : List α) :
    ((List.range m).flatMap fun k : Nat => chop (m : Int) (n + (k : Int)) l).Perm l := by
  induction l generalizing n with
  | nil => simp [chop]
  | cons x xs ih =>
    obtain ⟨k, hk, hu⟩ := exists_unique_dvd m hm n
    have := flatMap_range_select m k hk (fun k' => chop m (n + k') (x :: xs))
      (fun k' => chop m (n + 1 + k') xs) x (by
        intro k' hk'
        have e : n + (k' : Int) + 1 = n + 1 + k' := by ring
        simp only [chop, skips_eq, e]
        by_cases h : k' = k
        · simp [h, (hu k hk).2 rfl]
        · have : ¬ ((m : Int) ∣ n + k') := fun h' => h ((hu k' hk').1 h')
          simp [h, this])
    exact this.trans ((ih (n + 1)).cons x)

/-- Contributions of one anchor without chopping. -/
def block (s : Int) (full : Bool) (use : Nat → Nat → Bool) (i0 : Nat) (l : List (Nat × B)) :
    List (Contrib B) :=
  (l.filter fun p => use i0 p.1).map fun p => ⟨i0, p.1, sumScale s full i0 p.1, p.2⟩

theorem innerLoop_nochop (s : Int) (full : Bool) (use : Nat → Nat → Bool) (ncpu : Int) (i0 : Nat)
    (l : List (Nat × B)) (n : Int) :
    innerLoop s full use false ncpu i0 l n = (n, block s full use i0 l) := by
  induction l with
  | nil => rfl
  | cons p l ih =>
    obtain ⟨i1, b⟩ := p
    simp only [innerLoop, ih, Bool.false_and, Bool.false_eq_true, if_false, block, List.filter_cons]
    split <;> simp

theorem innerLoop_chop (s : Int) (full : Bool) (use : Nat → Nat → Bool) (ncpu : Int) (i0 : Nat)
    (l : List (Nat × B)) (n : Int) :
    innerLoop s full use true ncpu i0 l n
      = (n + l.length, block s full use i0 (chop ncpu n l)) := by
  induction l generalizing n with
  | nil => simp [innerLoop, chop, block]
  | cons p l ih =>
    obtain ⟨i1, b⟩ := p
    have e : n + 1 + (l.length : Int) = n + ((l.length : Int) + 1) := by ring
    simp only [innerLoop, ih, Bool.true_and, if_true, chop, List.length_cons, Nat.cast_add,
      Nat.cast_one, e]
    by_cases h : skips n ncpu
    · simp [h]
    · simp only [h, Bool.false_eq_true, if_false, block, List.filter_cons]
      split <;> simp

/-- Selected second sites of the BASIC loop. -/
def basicSel (full : Bool) (cnt i0 : Nat) : List Nat := List.range (if full then cnt else i0 + 1)

theorem basicLoop_serial (gen : Gen B) (full : Bool) (use : Nat → Nat → Bool) (cnt : Nat)
    (ncpu : Int) (as : List Nat) (n : Int) :
    basicLoop gen full use cnt false false ncpu as n
      = as.flatMap fun i0 => block 1 full use i0 (gen i0 (basicSel full cnt i0)) := by
  induction as generalizing n with
  | nil => rfl
  | cons i0 as ih =>
    simp only [basicLoop, Bool.false_and, Bool.false_eq_true, if_false, innerLoop_nochop, ih,
      List.flatMap_cons, basicSel]

theorem basicLoop_outer (gen : Gen B) (full : Bool) (use : Nat → Nat → Bool) (cnt : Nat)
    (ncpu : Int) (as : List Nat) (n : Int) :
    basicLoop gen full use cnt true false ncpu as n
      = (chop ncpu n (as.map fun i0 => block 1 full use i0 (gen i0 (basicSel full cnt i0)))).flatten := by
  induction as generalizing n with
  | nil => rfl
  | cons i0 as ih =>
    simp only [basicLoop, Bool.true_and, if_true, innerLoop_nochop, ih, List.map_cons, chop, basicSel]
    split <;> simp

/-- Raw (anchor, site, bond) list visited by the BASIC loop. -/
def rawBonds (gen : Gen B) (full : Bool) (cnt : Nat) (as : List Nat) : List (Nat × Nat × B) :=
  as.flatMap fun i0 => (gen i0 (basicSel full cnt i0)).map fun p => (i0, p)

/-- Mask filter and scale applied to raw bonds. -/
def rawContribs (full : Bool) (use : Nat → Nat → Bool) (l : List (Nat × Nat × B)) : List (Contrib B) :=
  (l.filter fun p => use p.1 p.2.1).map fun p => ⟨p.1, p.2.1, sumScale 1 full p.1 p.2.1, p.2.2⟩

theorem rawContribs_append (full : Bool) (use : Nat → Nat → Bool) (l₁ l₂ : List (Nat × Nat × B)) :
    rawContribs full use (l₁ ++ l₂) = rawContribs full use l₁ ++ rawContribs full use l₂ := by
  simp [rawContribs]

theorem rawContribs_block (full : Bool) (use : Nat → Nat → Bool) (i0 : Nat) (l : List (Nat × B)) :
    rawContribs full use (l.map fun p => (i0, p)) = block 1 full use i0 l := by
  simp [rawContribs, block, List.filter_map, Function.comp_def]

theorem basicLoop_inner (gen : Gen B) (full : Bool) (use : Nat → Nat → Bool) (cnt : Nat)
    (ncpu : Int) (as : List Nat) (n : Int) :
    basicLoop gen full use cnt false true ncpu as n
      = rawContribs full use (chop ncpu n (rawBonds gen full cnt as)) := by
  induction as generalizing n with
  | nil => rfl
  | cons i0 as ih =>
    simp only [basicLoop, Bool.false_and, Bool.false_eq_true, if_false, innerLoop_chop, ih]
    simp only [rawBonds, List.flatMap_cons, chop_append, rawContribs_append, chop_map,
      rawContribs_block, List.length_map, basicSel]

theorem serial_eq_raw (gen : Gen B) (full : Bool) (use : Nat → Nat → Bool) (cnt : Nat)
    (as : List Nat) :
    (as.flatMap fun i0 => block 1 full use i0 (gen i0 (basicSel full cnt i0)))
      = rawContribs full use (rawBonds gen full cnt as) := by
  induction as with
  | nil => rfl
  | cons i0 as ih =>
    simp only [rawBonds, List.flatMap_cons, rawContribs_append, rawContribs_block]
    rw [ih]; rfl

end Verif.Eval
