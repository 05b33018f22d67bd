import Verif.Model.Points
import Verif.Lemmas.Lattice
/-! Lemmas on the lattice-point iterator. -/
namespace Verif.Points
open Verif.R3 Verif.MathUtils Verif.Lattice Classical

/-- The integers of `[a, b)` in order. -/
def ints (a b : ℤ) : List ℤ := (List.range (b - a).toNat).map fun (k : Nat) => a + (k : ℤ)

theorem mem_ints (a b x : ℤ) : x ∈ ints a b ↔ a ≤ x ∧ x < b := by
  unfold ints
  simp only [List.mem_map, List.mem_range]
  constructor
  · rintro ⟨k, hk, rfl⟩; omega
  · rintro ⟨h1, h2⟩; exact ⟨(x - a).toNat, by omega, by omega⟩

theorem ints_nodup (a b : ℤ) : (ints a b).Nodup := by
  unfold ints
  refine List.Nodup.map ?_ List.nodup_range
  intro i j h
  have h' : a + (i : ℤ) = a + (j : ℤ) := h
  omega

theorem ints_nil (a b : ℤ) (h : b ≤ a) : ints a b = [] := by
  unfold ints
  have : (b - a).toNat = 0 := by omega
  rw [this]; rfl

theorem ints_cons (a b : ℤ) (h : a < b) : ints a b = a :: ints (a + 1) b := by
  unfold ints
  have : (b - a).toNat = (b - (a + 1)).toNat + 1 := by omega
  rw [this, List.range_succ_eq_map, List.map_cons, List.map_map]
  simp only [Nat.cast_zero, add_zero, List.cons.injEq, true_and]
  apply List.map_congr_left
  intro k _
  simp only [Function.comp, Nat.cast_succ]; ring

/-- Values of `o` still to come on the current line. -/
noncomputable def lineRest (s : St) : List ℤ :=
  ints (s.o + 1) s.hi_o ++
    if s.hi_o ≠ s.outside_o then ints ⌈s.o0line + s.oExcl⌉ s.outside_o else []

/-- Triplets on the lines still to come in the current plane. -/
noncomputable def planeRest (c : Cfg) (s : St) : List (ℤ × ℤ × ℤ) :=
  (ints (s.n + 1) s.hi_n).flatMap fun n =>
    (lineRest (setLine c { s with n := n })).map fun o => (s.m, n, o)

def dummy (m : ℤ) : St := ⟨m, 0, 0, 0, 0, 0, 0, 0, 0, 0, 0⟩

/-- All triplets of the plane `m`. -/
noncomputable def plane (c : Cfg) (m : ℤ) : List (ℤ × ℤ × ℤ) := planeRest c (nextM c (dummy (m - 1)))

/-- Triplets in the planes still to come. -/
noncomputable def restM (c : Cfg) (m : ℤ) : List (ℤ × ℤ × ℤ) := (ints (m + 1) c.hi_m).flatMap (plane c)

/-- Triplets still to come. -/
noncomputable def remaining (c : Cfg) (s : St) : List (ℤ × ℤ × ℤ) :=
  (lineRest s).map (fun o => (s.m, s.n, o)) ++ planeRest c s ++ restM c s.m

theorem setLine_congr (c : Cfg) (s t : St) (h1 : s.n0plane = t.n0plane) (h2 : s.o0plane = t.o0plane)
    (h3 : s.RplaneSquare = t.RplaneSquare) (n : ℤ) :
    lineRest (setLine c { s with n := n }) = lineRest (setLine c { t with n := n }) := by
  unfold lineRest setLine; simp only [h1, h2, h3]

theorem planeRest_congr (c : Cfg) (s t : St) (h1 : s.n0plane = t.n0plane) (h2 : s.o0plane = t.o0plane)
    (h3 : s.RplaneSquare = t.RplaneSquare) (h4 : s.m = t.m) (h5 : s.n = t.n) (h6 : s.hi_n = t.hi_n) :
    planeRest c s = planeRest c t := by
  unfold planeRest
  have e : (fun n => (lineRest (setLine c { s with n := n })).map fun o => (s.m, n, o))
      = fun n => (lineRest (setLine c { t with n := n })).map fun o => (t.m, n, o) := by
    funext n
    rw [setLine_congr c s t h1 h2 h3 n, h4]
  rw [e, h5, h6]

theorem nextM_m (c : Cfg) (s : St) : (nextM c s).m = s.m + 1 := by
  unfold nextM; simp only; split <;> rfl

theorem planeRest_nextM (c : Cfg) (s : St) (h : s.m + 1 < c.hi_m) :
    planeRest c (nextM c s) = plane c (s.m + 1) := by
  unfold plane
  have h' : (dummy (s.m + 1 - 1)).m + 1 < c.hi_m := by show s.m + 1 - 1 + 1 < c.hi_m; omega
  have e : s.m + 1 - 1 + 1 = s.m + 1 := by omega
  apply planeRest_congr
  all_goals
    unfold nextM
    simp only [dummy, e, h, not_true_eq_false, if_false]

theorem nextN_spec (c : Cfg) (s : St) :
    ((nextN c s).m < c.hi_m → planeRest c s ++ restM c s.m = remaining c (nextN c s)) ∧
    (¬ (nextN c s).m < c.hi_m → s.m < c.hi_m ∨ s.hi_n ≤ s.n + 1 → planeRest c s ++ restM c s.m = []) := by
  induction h : (c.hi_m - s.m).toNat using Nat.strong_induction_on generalizing s with
  | _ k ih =>
    have hm := nextM_m c { s with n := s.n + 1 }
    rw [nextN]
    simp only
    split
    · rename_i hn
      constructor
      · intro _
        unfold remaining
        have e : planeRest c s = ((lineRest (setLine c { s with n := s.n + 1 })).map
            fun o => (s.m, s.n + 1, o)) ++ planeRest c (setLine c { s with n := s.n + 1 }) := by
          unfold planeRest
          rw [ints_cons _ _ hn, List.flatMap_cons]
          rfl
        rw [e]; rfl
      · intro hf hor
        exfalso
        have hf' : ¬ s.m < c.hi_m := hf
        rcases hor with h1 | h1
        · exact hf' h1
        · omega
    · rename_i hn
      have hp : planeRest c s = [] := by
        unfold planeRest; rw [ints_nil _ _ (by omega)]; rfl
      rw [hp, List.nil_append]
      split
      · rename_i hf
        rw [hm] at hf
        simp only at hf
        have hrec := ih (c.hi_m - (nextM c { s with n := s.n + 1 }).m).toNat (by rw [hm]; simp only; omega) _ rfl
        have hr : restM c s.m = planeRest c (nextM c { s with n := s.n + 1 }) ++
            restM c (nextM c { s with n := s.n + 1 }).m := by
          rw [planeRest_nextM c { s with n := s.n + 1 } hf, hm]
          unfold restM
          rw [ints_cons _ _ hf, List.flatMap_cons]
        rw [hr]
        exact ⟨hrec.1, fun h1 _ => hrec.2 h1 (Or.inl (by rw [hm]; exact hf))⟩
      · rename_i hf
        refine ⟨fun h1 => absurd h1 hf, fun _ _ => ?_⟩
        rw [hm] at hf
        simp only at hf
        unfold restM
        rw [ints_nil _ _ (by omega)]; rfl

/-- A state from which `next_o` works as intended. -/
def Usable (c : Cfg) (s : St) : Prop :=
  s.m < c.hi_m ∨ (s.hi_o = s.outside_o ∧ s.hi_o ≤ s.o + 1 ∧ s.hi_n ≤ s.n + 1)

theorem nextO_spec (c : Cfg) (s : St) (hu : Usable c s) :
    ((nextO c s).m < c.hi_m → remaining c s = (nextO c s).mno :: remaining c (nextO c s)) ∧
    (¬ (nextO c s).m < c.hi_m → remaining c s = []) := by
  fun_induction nextO c s with
  | case1 s s1 h1 =>
    have hm : s.m < c.hi_m := by
      rcases hu with h | ⟨_, h, _⟩
      · exact h
      · have : s.o + 1 < s.hi_o := h1
        omega
    refine ⟨fun _ => ?_, fun hf => absurd hm hf⟩
    unfold remaining
    have e : lineRest s = (s.o + 1) :: lineRest s1 := by
      unfold lineRest
      rw [ints_cons _ _ h1, List.cons_append]
    rw [e]
    rfl
  | case2 s s1 h1 h2 s2 h3 ih =>
    have e : lineRest s = lineRest s2 := by
      have h1' : s.hi_o ≤ s.o + 1 := not_lt.1 h1
      have h2' : s.hi_o ≠ s.outside_o := h2
      unfold lineRest
      rw [ints_nil _ _ h1', if_pos h2']
      simp only [s2, s1, ne_eq, not_true_eq_false, if_false, List.append_nil, List.nil_append,
        sub_add_cancel]
    have e2 : remaining c s = remaining c s2 := by
      unfold remaining; rw [e]; rfl
    rw [e2]
    exact ih (Or.inl h3)
  | case3 s s1 h1 h2 s2 h3 =>
    exfalso
    rcases hu with h | ⟨h, _, _⟩
    · exact h3 h
    · exact h2 h
  | case4 s s1 h1 h2 s2 h3 ih =>
    have h2' : s.hi_o = s.outside_o := by simpa using h2
    have h1' : s.hi_o ≤ s.o + 1 := not_lt.1 h1
    have el : lineRest s = [] := by
      unfold lineRest
      rw [ints_nil _ _ h1', if_neg (by simp [h2']), List.nil_append]
    have e2 : remaining c s = remaining c s2 := by
      have := (nextN_spec c s1).1 h3
      rw [← this]
      unfold remaining
      rw [el, List.map_nil, List.nil_append]
      rfl
    rw [e2]
    exact ih (Or.inl h3)
  | case5 s s1 h1 h2 s2 h3 =>
    have h2' : s.hi_o = s.outside_o := by simpa using h2
    have h1' : s.hi_o ≤ s.o + 1 := not_lt.1 h1
    have el : lineRest s = [] := by
      unfold lineRest
      rw [ints_nil _ _ h1', if_neg (by simp [h2']), List.nil_append]
    refine ⟨fun h => absurd h h3, fun _ => ?_⟩
    have := (nextN_spec c s1).2 h3 (by
      rcases hu with h | ⟨_, _, h⟩
      · exact Or.inl h
      · exact Or.inr h)
    unfold remaining
    rw [el, List.map_nil, List.nil_append]
    exact this

theorem visits_remaining (c : Cfg) (s : St) (hu : Usable c s) :
    Visits c (nextO c s) (remaining c s) := by
  induction h : (remaining c s).length generalizing s with
  | zero =>
    obtain ⟨h1, h2⟩ := nextO_spec c s hu
    have h0 : remaining c s = [] := List.length_eq_zero_iff.1 h
    by_cases hf : (nextO c s).m < c.hi_m
    · rw [h1 hf] at h0; exact absurd h0 (by simp)
    · rw [h0]; exact Visits.done _ hf
  | succ k ih =>
    obtain ⟨h1, h2⟩ := nextO_spec c s hu
    by_cases hf : (nextO c s).m < c.hi_m
    · rw [h1 hf]
      refine Visits.next _ _ (by unfold finished; simpa using hf) (ih _ (Or.inl hf) ?_)
      rw [h1 hf] at h
      simpa using h
    · rw [h2 hf] at h; simp at h

theorem visits_unique (c : Cfg) (s : St) (l l' : List (ℤ × ℤ × ℤ)) (h : Visits c s l)
    (h' : Visits c s l') : l = l' := by
  induction h generalizing l' with
  | done s hf =>
    cases h' with
    | done => rfl
    | next _ _ hn _ => exact absurd hf hn
  | next s l hn _ ih =>
    cases h' with
    | done _ hf => exact absurd hf hn
    | next _ l' _ h2 => rw [ih _ h2]

/-- The full list of visited triplets. -/
noncomputable def allPoints (c : Cfg) : List (ℤ × ℤ × ℤ) := restM c (-c.hi_m)

theorem rewind_visits (c : Cfg) (rp : ℝ) : Visits c (rewind c rp) (allPoints c) := by
  unfold rewind
  have h := visits_remaining c ⟨-c.hi_m, 0, 0, 0, 0, 0, 0, 0, 0, 0, rp⟩ (by
    by_cases h : -c.hi_m < c.hi_m
    · exact Or.inl h
    · exact Or.inr ⟨rfl, by simp, by simp⟩)
  have e : remaining c ⟨-c.hi_m, 0, 0, 0, 0, 0, 0, 0, 0, 0, rp⟩ = allPoints c := by
    unfold remaining lineRest planeRest allPoints
    simp only
    rw [ints_nil (0 + 1) 0 (by omega)]
    simp
  rw [e] at h
  exact h

/-! ### The visited set -/

/-- Squared offset of plane, line and point. -/
noncomputable def pA (c : Cfg) (m : ℤ) : ℝ := ((m : ℝ) / c.ar) ^ 2
noncomputable def pN0 (c : Cfg) (m : ℤ) : ℝ := (m : ℝ) * c.dn0dm
noncomputable def pB (c : Cfg) (m n : ℤ) : ℝ := (((n : ℝ) - pN0 c m) / c.b2r) ^ 2
noncomputable def pO0 (c : Cfg) (m n : ℤ) : ℝ := (m : ℝ) * c.do0dm + ((n : ℝ) - pN0 c m) * c.do0dn
noncomputable def pC (c : Cfg) (m n o : ℤ) : ℝ := (((o : ℝ) - pO0 c m n) / c.c1r) ^ 2

theorem sqrtPos_nonneg (x : ℝ) : 0 ≤ sqrtPos x := by
  unfold sqrtPos; split <;> [exact Real.sqrt_nonneg _; exact le_rfl]

/-- `|t| < sqrtPos x * k` means `(t/k)² < x`. -/
theorem lt_sqrtPos (t x k : ℝ) (hk : 0 < k) : |t| < sqrtPos x * k ↔ (t / k) ^ 2 < x := by
  have e : |t| < sqrtPos x * k ↔ |t / k| < sqrtPos x := by
    rw [abs_div, abs_of_pos hk, div_lt_iff₀ hk]
  rw [e]
  unfold sqrtPos
  split
  · rename_i h
    rw [Real.lt_sqrt (abs_nonneg _), sq_abs]
  · rename_i h
    constructor
    · intro h1; exact absurd h1 (not_lt.2 (abs_nonneg _))
    · intro h1; exact absurd (lt_of_le_of_lt (sq_nonneg _) h1) h

theorem abs_lt_iff_sub (x y h : ℝ) : |x - y| < h ↔ y - h < x ∧ x < y + h := by
  rw [abs_lt]; constructor <;> rintro ⟨h1, h2⟩ <;> constructor <;> linarith

/-- Membership in a fresh line. -/
theorem mem_lineRest_setLine (c : Cfg) (s : St) (n o : ℤ) :
    let o0 := s.o0plane + ((n : ℝ) - s.n0plane) * c.do0dn
    let rl := s.RplaneSquare - (((n : ℝ) - s.n0plane) / c.b2r) ^ 2
    let oHalf := sqrtPos rl * c.c1r
    let oExcl := sqrtPos ((rl - c.RmaxSquare) + c.RminSquare) * c.c1r
    0 < c.c1r →
    ((o ∈ lineRest (setLine c { s with n := n }) → |(o : ℝ) - o0| < oHalf) ∧
     (|(o : ℝ) - o0| < oHalf → ¬ |(o : ℝ) - o0| < oExcl → o ∈ lineRest (setLine c { s with n := n })) ∧
     (o ∈ lineRest (setLine c { s with n := n }) → |(o : ℝ) - o0| < oExcl →
        ∃ o' : ℤ, o' < o ∧ (o' : ℝ) = o0 - oExcl)) ∧
    (lineRest (setLine c { s with n := n })).Nodup := by
  intro o0 rl oHalf oExcl hc1
  have hH : 0 ≤ oHalf := mul_nonneg (sqrtPos_nonneg _) hc1.le
  have hE : 0 ≤ oExcl := mul_nonneg (sqrtPos_nonneg _) hc1.le
  have hl : lineRest (setLine c { s with n := n }) =
      ints (⌊o0 - oHalf⌋ + 1) (if oExcl ≠ 0 ∧ |(⌈o0 - oExcl⌉ : ℝ) - o0| < oExcl then ⌈o0 - oExcl⌉ else ⌈o0 + oHalf⌉) ++
      if (if oExcl ≠ 0 ∧ |(⌈o0 - oExcl⌉ : ℝ) - o0| < oExcl then ⌈o0 - oExcl⌉ else ⌈o0 + oHalf⌉) ≠ ⌈o0 + oHalf⌉ then
        ints ⌈o0 + oExcl⌉ ⌈o0 + oHalf⌉ else [] := rfl
  rw [hl]
  clear hl
  have flo : ∀ x : ℤ, ⌊o0 - oHalf⌋ + 1 ≤ x ↔ o0 - oHalf < x := by
    intro x; rw [← Int.floor_lt]; omega
  by_cases hcv : oExcl ≠ 0 ∧ |(⌈o0 - oExcl⌉ : ℝ) - o0| < oExcl
  · rw [if_pos hcv]
    have mem : ∀ x : ℤ, x ∈ ints (⌊o0 - oHalf⌋ + 1) ⌈o0 - oExcl⌉ ++
        (if ⌈o0 - oExcl⌉ ≠ ⌈o0 + oHalf⌉ then ints ⌈o0 + oExcl⌉ ⌈o0 + oHalf⌉ else []) ↔
        (o0 - oHalf < x ∧ (x : ℝ) < o0 - oExcl) ∨ (o0 + oExcl ≤ x ∧ (x : ℝ) < o0 + oHalf) := by
      intro x
      have e2 : x ∈ (if ⌈o0 - oExcl⌉ ≠ ⌈o0 + oHalf⌉ then ints ⌈o0 + oExcl⌉ ⌈o0 + oHalf⌉ else []) ↔
          x ∈ ints ⌈o0 + oExcl⌉ ⌈o0 + oHalf⌉ := by
        split
        · rfl
        · rename_i h
          have h' : ⌈o0 - oExcl⌉ = ⌈o0 + oHalf⌉ := by simpa using h
          have : ⌈o0 - oExcl⌉ ≤ ⌈o0 + oExcl⌉ := Int.ceil_le_ceil (by linarith)
          rw [ints_nil _ _ (by omega)]
      rw [List.mem_append, e2, mem_ints, mem_ints, flo, Int.lt_ceil, Int.lt_ceil, Int.ceil_le]
    refine ⟨⟨?_, ?_, ?_⟩, ?_⟩
    · rw [mem, abs_lt_iff_sub]
      rintro (⟨h1, h2⟩ | ⟨h1, h2⟩)
      · exact ⟨h1, by linarith⟩
      · exact ⟨by linarith, h2⟩
    · rw [mem, abs_lt_iff_sub, abs_lt_iff_sub]
      rintro ⟨h1, h2⟩ h3
      by_cases h4 : (o : ℝ) < o0 - oExcl
      · exact Or.inl ⟨h1, h4⟩
      · right
        refine ⟨?_, h2⟩
        by_contra h5
        rw [not_le] at h5
        rw [not_lt] at h4
        rcases lt_or_eq_of_le h4 with h6 | h6
        · exact h3 ⟨h6, h5⟩
        · -- `o = o0 - oExcl` is an integer, so the hole would not have been carved
          have : ⌈o0 - oExcl⌉ = o := by rw [h6, Int.ceil_intCast]
          rw [this, ← h6] at hcv
          have h7 := hcv.2
          have : o0 - oExcl - o0 = -oExcl := by ring
          rw [this, abs_neg, abs_of_nonneg hE] at h7
          exact lt_irrefl _ h7
    · rw [mem, abs_lt_iff_sub]
      rintro (⟨h1, h2⟩ | ⟨h1, h2⟩) ⟨h3, h4⟩
      · linarith
      · linarith
    · rw [List.nodup_append]
      refine ⟨ints_nodup _ _, ?_, ?_⟩
      · split
        · exact ints_nodup _ _
        · exact List.nodup_nil
      · intro x hx y hy hxy
        subst hxy
        rw [mem_ints, Int.lt_ceil] at hx
        split at hy
        · rw [mem_ints, Int.ceil_le] at hy
          linarith [hx.2, hy.1]
        · simp at hy
  · rw [if_neg hcv]
    simp only [ne_eq, not_true_eq_false, if_false, List.append_nil]
    have mem : ∀ x : ℤ, x ∈ ints (⌊o0 - oHalf⌋ + 1) ⌈o0 + oHalf⌉ ↔
        (o0 - oHalf < x ∧ (x : ℝ) < o0 + oHalf) := by
      intro x; rw [mem_ints, flo, Int.lt_ceil]
    refine ⟨⟨?_, ?_, ?_⟩, ints_nodup _ _⟩
    · rw [mem, abs_lt_iff_sub]; exact id
    · rw [mem, abs_lt_iff_sub]; exact fun h _ => h
    · rw [mem, abs_lt_iff_sub]
      rintro _ ⟨h3, h4⟩
      have hpos : oExcl ≠ 0 := by intro h0; rw [h0] at h3 h4; linarith
      have h5 : ¬ |(⌈o0 - oExcl⌉ : ℝ) - o0| < oExcl := fun h => hcv ⟨hpos, h⟩
      have h6 := Int.le_ceil (o0 - oExcl)
      have h7 : ⌈o0 - oExcl⌉ ≤ o := Int.ceil_le.2 h3.le
      have h7' : (⌈o0 - oExcl⌉ : ℝ) ≤ o := by exact_mod_cast h7
      rw [abs_lt_iff_sub] at h5
      have h8 : (⌈o0 - oExcl⌉ : ℝ) = o0 - oExcl := by
        by_contra h9
        exact h5 ⟨lt_of_le_of_ne h6 (Ne.symm h9), by linarith⟩
      refine ⟨⌈o0 - oExcl⌉, ?_, h8⟩
      have : (⌈o0 - oExcl⌉ : ℝ) < o := by rw [h8]; exact h3
      exact_mod_cast this

/-- A line that enters the hole exactly at a lattice point is not cut. -/
theorem mem_lineRest_uncut (c : Cfg) (s : St) (n o o' : ℤ) :
    let o0 := s.o0plane + ((n : ℝ) - s.n0plane) * c.do0dn
    let rl := s.RplaneSquare - (((n : ℝ) - s.n0plane) / c.b2r) ^ 2
    let oHalf := sqrtPos rl * c.c1r
    let oExcl := sqrtPos ((rl - c.RmaxSquare) + c.RminSquare) * c.c1r
    0 < c.c1r → |(o : ℝ) - o0| < oHalf → (o' : ℝ) = o0 - oExcl →
    o ∈ lineRest (setLine c { s with n := n }) := by
  intro o0 rl oHalf oExcl hc1 h1 h2
  have hE : 0 ≤ oExcl := mul_nonneg (sqrtPos_nonneg _) hc1.le
  have hl : lineRest (setLine c { s with n := n }) =
      ints (⌊o0 - oHalf⌋ + 1) (if oExcl ≠ 0 ∧ |(⌈o0 - oExcl⌉ : ℝ) - o0| < oExcl then ⌈o0 - oExcl⌉ else ⌈o0 + oHalf⌉) ++
      if (if oExcl ≠ 0 ∧ |(⌈o0 - oExcl⌉ : ℝ) - o0| < oExcl then ⌈o0 - oExcl⌉ else ⌈o0 + oHalf⌉) ≠ ⌈o0 + oHalf⌉ then
        ints ⌈o0 + oExcl⌉ ⌈o0 + oHalf⌉ else [] := rfl
  rw [hl]
  have hcv : ¬ (oExcl ≠ 0 ∧ |(⌈o0 - oExcl⌉ : ℝ) - o0| < oExcl) := by
    rintro ⟨_, h⟩
    rw [← h2, Int.ceil_intCast, h2, show o0 - oExcl - o0 = -oExcl by ring, abs_neg, abs_of_nonneg hE] at h
    exact lt_irrefl _ h
  rw [if_neg hcv]
  simp only [ne_eq, not_true_eq_false, if_false, List.append_nil]
  rw [abs_lt_iff_sub] at h1
  rw [mem_ints, Int.lt_ceil]
  refine ⟨?_, h1.2⟩
  have : ⌊o0 - oHalf⌋ < o := Int.floor_lt.2 h1.1
  omega

/-- Membership in the whole list. -/
theorem mem_allPoints (c : Cfg) (m n o : ℤ) :
    (m, n, o) ∈ allPoints c ↔ (-c.hi_m < m ∧ m < c.hi_m) ∧
      ((nextM c (dummy (m - 1))).n < n ∧ n < (nextM c (dummy (m - 1))).hi_n) ∧
      o ∈ lineRest (setLine c { nextM c (dummy (m - 1)) with n := n }) := by
  unfold allPoints restM plane planeRest
  simp only [List.mem_flatMap, List.mem_map, mem_ints, nextM_m]
  constructor
  · rintro ⟨m', hm', n', hn', o', ho', he⟩
    simp only [Prod.mk.injEq] at he
    obtain ⟨h1, rfl, rfl⟩ := he
    have : m' = m := by rw [← h1]; show m' = m' - 1 + 1; omega
    subst this
    exact ⟨⟨by omega, hm'.2⟩, ⟨by omega, hn'.2⟩, ho'⟩
  · rintro ⟨hm, hn, ho⟩
    exact ⟨m, ⟨by omega, hm.2⟩, n, ⟨by omega, hn.2⟩, o, ho, by
      have : (dummy (m - 1)).m + 1 = m := by show m - 1 + 1 = m; omega
      rw [this]⟩

theorem nodup_allPoints (c : Cfg) (hc : 0 < c.c1r) : (allPoints c).Nodup := by
  unfold allPoints restM
  rw [List.nodup_flatMap]
  constructor
  · intro m _
    unfold plane planeRest
    rw [List.nodup_flatMap]
    constructor
    · intro n _
      refine List.Nodup.map ?_ (mem_lineRest_setLine c _ n 0 hc).2
      intro a b h
      have h' : ((nextM c (dummy (m - 1))).m, n, a) = ((nextM c (dummy (m - 1))).m, n, b) := h
      simpa using h'
    · refine (ints_nodup _ _).imp ?_
      intro a b hab
      simp only [Function.onFun, List.disjoint_left]
      intro x hx hy
      simp only [List.mem_map] at hx hy
      obtain ⟨o1, _, rfl⟩ := hx
      obtain ⟨o2, _, h2⟩ := hy
      simp only [Prod.mk.injEq] at h2
      exact hab h2.2.1.symm
  · refine (ints_nodup _ _).imp ?_
    intro a b hab
    simp only [Function.onFun, List.disjoint_left]
    intro x hx hy
    unfold plane planeRest at hx hy
    simp only [List.mem_flatMap, List.mem_map, nextM_m] at hx hy
    obtain ⟨n1, _, o1, _, rfl⟩ := hx
    obtain ⟨n2, _, o2, _, h2⟩ := hy
    simp only [Prod.mk.injEq] at h2
    have := h2.1
    have e1 : (dummy (b - 1)).m + 1 = b := by show b - 1 + 1 = b; omega
    have e2 : (dummy (a - 1)).m + 1 = a := by show a - 1 + 1 = a; omega
    rw [e1, e2] at this
    exact hab this.symm

/-- The visited set in terms of the squared offsets. -/
theorem mem_allPoints_sq (c : Cfg) (rmax : ℝ) (har : 0 < c.ar) (hb : 0 < c.b2r) (hc : 0 < c.c1r)
    (hhi : c.hi_m = ⌈rmax * c.ar⌉)
    (hR : c.RmaxSquare = if rmax < 0 then -(rmax * rmax) else rmax * rmax) (m n o : ℤ) :
    ((m, n, o) ∈ allPoints c → 0 < rmax ∧ pA c m + pB c m n + pC c m n o < c.RmaxSquare) ∧
    (pA c m + pB c m n + pC c m n o < c.RmaxSquare → c.RminSquare ≤ pA c m + pB c m n + pC c m n o →
      (m, n, o) ∈ allPoints c) ∧
    ((m, n, o) ∈ allPoints c → pA c m + pB c m n + pC c m n o < c.RminSquare →
      ∃ o' : ℤ, o' < o ∧ pA c m + pB c m n + pC c m n o' = c.RminSquare) ∧
    (pA c m + pB c m n + pC c m n o < c.RmaxSquare → pA c m + pB c m n + pC c m n o < c.RminSquare →
      (∃ o' : ℤ, o' < o ∧ pA c m + pB c m n + pC c m n o' = c.RminSquare) → (m, n, o) ∈ allPoints c) := by
  have hA0 : 0 ≤ pA c m := sq_nonneg _
  have hB0 : 0 ≤ pB c m n := sq_nonneg _
  have hC0 : ∀ o, 0 ≤ pC c m n o := fun o => sq_nonneg _
  rw [mem_allPoints]
  by_cases hm : -c.hi_m < m ∧ m < c.hi_m
  · have hm' : m - 1 + 1 < c.hi_m := by omega
    have e1 : m - 1 + 1 = m := by omega
    have hst : nextM c (dummy (m - 1)) =
        { dummy m with n0plane := pN0 c m, o0plane := (m : ℝ) * c.do0dm,
                       RplaneSquare := c.RmaxSquare - pA c m,
                       n := ⌊pN0 c m - sqrtPos (c.RmaxSquare - pA c m) * c.b2r⌋,
                       hi_n := ⌈pN0 c m + sqrtPos (c.RmaxSquare - pA c m) * c.b2r⌉ } := by
      unfold nextM dummy pN0 pA
      simp only [hm', not_true_eq_false, if_false]
      simp only [e1]
    have hline := mem_lineRest_setLine c (nextM c (dummy (m - 1))) n o hc
    have huncut := fun o' => mem_lineRest_uncut c (nextM c (dummy (m - 1))) n o o' hc
    rw [hst] at hline huncut ⊢
    simp only at hline huncut ⊢
    obtain ⟨⟨l1, l2, l3⟩, _⟩ := hline
    have hn : (⌊pN0 c m - sqrtPos (c.RmaxSquare - pA c m) * c.b2r⌋ < n ∧
        n < ⌈pN0 c m + sqrtPos (c.RmaxSquare - pA c m) * c.b2r⌉) ↔ pB c m n < c.RmaxSquare - pA c m := by
      rw [Int.floor_lt, Int.lt_ceil, ← abs_lt_iff_sub, lt_sqrtPos _ _ _ hb]
      rfl
    rw [hn]
    have ho : ∀ o : ℤ, |(o : ℝ) - ((m : ℝ) * c.do0dm + ((n : ℝ) - pN0 c m) * c.do0dn)|
        < sqrtPos (c.RmaxSquare - pA c m - (((n : ℝ) - pN0 c m) / c.b2r) ^ 2) * c.c1r ↔
        pC c m n o < c.RmaxSquare - pA c m - pB c m n := by
      intro o; rw [lt_sqrtPos _ _ _ hc]; rfl
    have hx : ∀ o : ℤ, |(o : ℝ) - ((m : ℝ) * c.do0dm + ((n : ℝ) - pN0 c m) * c.do0dn)|
        < sqrtPos (c.RmaxSquare - pA c m - (((n : ℝ) - pN0 c m) / c.b2r) ^ 2 - c.RmaxSquare + c.RminSquare) * c.c1r ↔
        pC c m n o < c.RmaxSquare - pA c m - pB c m n - c.RmaxSquare + c.RminSquare := by
      intro o; rw [lt_sqrtPos _ _ _ hc]; rfl
    rw [ho o] at l1 l2
    rw [hx o] at l2 l3
    have hmr : -(m : ℝ) < rmax * c.ar := by
      have : -m < c.hi_m := by omega
      rw [hhi, Int.lt_ceil] at this
      push_cast at this; exact this
    have hmr2 : (m : ℝ) < rmax * c.ar := by
      have := hm.2
      rw [hhi, Int.lt_ceil] at this; exact this
    have hrpos : 0 < rmax := by
      have : 0 < rmax * c.ar := by linarith
      exact pos_of_mul_pos_left this har.le
    refine ⟨?_, ?_, ?_, ?_⟩
    rotate_left 3
    · rintro h1 h2 ⟨o', ho', he⟩
      refine ⟨hm, by have := hC0 o; linarith, huncut o' ((ho o).2 (by linarith)) ?_⟩
      have hpos : 0 < c.RmaxSquare - pA c m - (((n : ℝ) - pN0 c m) / c.b2r) ^ 2 - c.RmaxSquare + c.RminSquare := by
        have h4 := hC0 o
        have h5 : (((n : ℝ) - pN0 c m) / c.b2r) ^ 2 = pB c m n := rfl
        rw [h5]; linarith
      have ho1 := (hx o).2 (by linarith)
      have ho2 : ¬ _ := fun h => absurd ((hx o').1 h) (by rw [not_lt]; linarith)
      have hval : (((o' : ℝ) - pO0 c m n) / c.c1r) ^ 2 =
          c.RmaxSquare - pA c m - (((n : ℝ) - pN0 c m) / c.b2r) ^ 2 - c.RmaxSquare + c.RminSquare := by
        have e : pC c m n o' = (((o' : ℝ) - pO0 c m n) / c.c1r) ^ 2 := rfl
        have e2 : pB c m n = (((n : ℝ) - pN0 c m) / c.b2r) ^ 2 := rfl
        rw [← e, ← e2]; linarith
      have habs : |(o' : ℝ) - pO0 c m n| =
          sqrtPos (c.RmaxSquare - pA c m - (((n : ℝ) - pN0 c m) / c.b2r) ^ 2 - c.RmaxSquare + c.RminSquare) * c.c1r := by
        unfold sqrtPos
        rw [if_pos hpos, ← hval, Real.sqrt_sq_eq_abs, abs_div, abs_of_pos hc, div_mul_cancel₀ _ hc.ne']
      have hlt : (o' : ℝ) < o := by exact_mod_cast ho'
      have e0 : pO0 c m n = (m : ℝ) * c.do0dm + ((n : ℝ) - pN0 c m) * c.do0dn := rfl
      rw [← e0] at ho1 ⊢
      rw [← habs] at ho1 ⊢
      rw [abs_lt] at ho1
      rcases abs_cases ((o' : ℝ) - pO0 c m n) with ⟨h6, _⟩ | ⟨h6, _⟩
      · rw [h6] at ho1; linarith [ho1.2]
      · rw [h6]; ring
    · rintro ⟨_, h1, h2⟩
      have := l1 h2
      exact ⟨hrpos, by linarith⟩
    · intro h1 h2
      refine ⟨hm, ?_, l2 (by linarith) (by rw [not_lt]; linarith)⟩
      have := hC0 o; linarith
    · rintro ⟨_, h1, h2⟩ h3
      obtain ⟨o', ho', he⟩ := l3 h2 (by linarith)
      refine ⟨o', ho', ?_⟩
      have hpos : 0 < c.RmaxSquare - pA c m - (((n : ℝ) - pN0 c m) / c.b2r) ^ 2 - c.RmaxSquare + c.RminSquare := by
        have h4 := hC0 o
        have h5 : (((n : ℝ) - pN0 c m) / c.b2r) ^ 2 = pB c m n := rfl
        rw [h5]; linarith
      have hpc : pC c m n o' = c.RmaxSquare - pA c m - pB c m n - c.RmaxSquare + c.RminSquare := by
        unfold pC pO0
        rw [he]
        unfold sqrtPos
        rw [if_pos hpos]
        have : (m : ℝ) * c.do0dm + ((n : ℝ) - pN0 c m) * c.do0dn -
            Real.sqrt (c.RmaxSquare - pA c m - (((n : ℝ) - pN0 c m) / c.b2r) ^ 2 - c.RmaxSquare + c.RminSquare) * c.c1r -
            ((m : ℝ) * c.do0dm + ((n : ℝ) - pN0 c m) * c.do0dn) =
            -(Real.sqrt (c.RmaxSquare - pA c m - (((n : ℝ) - pN0 c m) / c.b2r) ^ 2 - c.RmaxSquare + c.RminSquare) * c.c1r) := by
          ring
        rw [this, neg_div, mul_div_assoc, div_self hc.ne', mul_one, neg_sq, Real.sq_sqrt hpos.le]
        rfl
      rw [hpc]; ring
  · suffices hno : ¬ pA c m + pB c m n + pC c m n o < c.RmaxSquare from
      ⟨fun h => absurd h.1 hm, fun h => absurd h hno, fun h => absurd h.1 hm, fun h => absurd h hno⟩
    intro h1
    apply hm
    have hA : pA c m < c.RmaxSquare := by have := hC0 o; linarith
    have hr : ¬ rmax < 0 := by
      intro h; rw [hR, if_pos h] at hA
      have := mul_self_nonneg rmax
      linarith
    rw [hR, if_neg hr] at hA
    have hr' : 0 ≤ rmax := not_lt.1 hr
    have habs : |(m : ℝ) / c.ar| < rmax := by
      apply abs_lt_of_sq_lt_sq _ hr'
      unfold pA at hA
      linarith [sq rmax]
    rw [abs_div, abs_of_pos har, div_lt_iff₀ har] at habs
    rw [abs_lt] at habs
    rw [hhi]
    constructor
    · have : -m < ⌈rmax * c.ar⌉ := by rw [Int.lt_ceil]; push_cast; linarith [habs.1]
      omega
    · rw [Int.lt_ceil]; exact habs.2

end Verif.Points
