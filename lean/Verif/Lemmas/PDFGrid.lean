import Verif.Model.PDFGrid
import Mathlib.Tactic.Linarith
import Mathlib.Tactic.Ring
import Mathlib.Tactic.FieldSimp
import Mathlib.Algebra.BigOperators.Group.List.Basic
/-! Lemmas on the grid model. -/
namespace Verif.PDFGrid
set_option linter.unusedSectionVars false
variable {K : Type} [Field K] [LinearOrder K] [IsStrictOrderedRing K] [FloorRing K]

theorem eps_pos : (0 : K) < eps := by unfold eps; positivity

theorem lt_rmaxSteps (rmax dr : K) (hd : 0 < dr) (n : ℤ) :
    n < rmaxSteps rmax dr ↔ (n : K) * dr < rmax := by
  unfold rmaxSteps
  rw [Int.lt_ceil, lt_div_iff₀ hd]

theorem rminSteps_le (rmin dr : K) (hd : eps < dr) (n : ℤ) :
    rminSteps rmin dr ≤ n ↔ rmin - eps ≤ (n : K) * dr := by
  have hd0 : 0 < dr := lt_trans eps_pos hd
  have h1 : rmin ≤ (⌈rmin / dr⌉ : K) * dr := by
    rw [← div_le_iff₀ hd0]; exact Int.le_ceil _
  have h2 : ((⌈rmin / dr⌉ : K) - 1) * dr < rmin := by
    rw [← lt_div_iff₀ hd0]; have := Int.ceil_lt_add_one (rmin / dr); linarith
  have step : ∀ a b : ℤ, a ≤ b → (a : K) * dr ≤ (b : K) * dr := fun a b h =>
    mul_le_mul_of_nonneg_right (by exact_mod_cast h) hd0.le
  unfold rminSteps
  simp only
  split
  · rename_i hc
    push_cast at hc
    rw [abs_le] at hc
    constructor
    · intro h
      have := step _ _ h
      push_cast at this
      linarith [hc.2]
    · intro h
      by_contra hlt
      have hn : n ≤ ⌈rmin / dr⌉ - 1 - 1 := by omega
      have := step _ _ hn
      push_cast at this
      nlinarith
  · rename_i hc
    push_cast at hc
    rw [abs_le, not_and_or] at hc
    constructor
    · intro h
      have := step _ _ h
      linarith [eps_pos (K := K)]
    · intro h
      by_contra hlt
      have hn : n ≤ ⌈rmin / dr⌉ - 1 := by omega
      have := step _ _ hn
      push_cast at this
      rcases hc with hc | hc
      · have := eps_pos (K := K); linarith
      · exact hc (by linarith)

theorem rminSteps_mono {a b dr : K} (hd : eps < dr) (h : a ≤ b) : rminSteps a dr ≤ rminSteps b dr := by
  rw [rminSteps_le _ _ hd]
  have := (rminSteps_le b dr hd (rminSteps b dr)).1 le_rfl
  linarith

theorem rmaxSteps_mono {a b dr : K} (hd : 0 < dr) (h : a ≤ b) : rmaxSteps a dr ≤ rmaxSteps b dr := by
  unfold rmaxSteps
  exact Int.ceil_le_ceil (by gcongr)

theorem rminSteps_nonneg {rmin dr : K} (hd : eps < dr) (h : 0 ≤ rmin) : 0 ≤ rminSteps rmin dr := by
  by_contra hlt
  have h1 : rminSteps rmin dr ≤ -1 := by omega
  rw [rminSteps_le _ _ hd] at h1
  push_cast at h1
  linarith

theorem mem_intRange {a b n : ℤ} : n ∈ intRange a b ↔ a ≤ n ∧ n < b := by
  unfold intRange
  simp only [List.mem_map, List.mem_range]
  constructor
  · rintro ⟨k, hk, rfl⟩; omega
  · rintro ⟨h1, h2⟩; exact ⟨(n - a).toNat, by omega, by omega⟩

theorem length_intRange (a b : ℤ) : (intRange a b).length = (b - a).toNat := by simp [intRange]

theorem getElem_intRange {a b : ℤ} {i : Nat} (h : i < (intRange a b).length) :
    (intRange a b)[i] = a + i := by simp [intRange]

theorem sorted_intRange (a b : ℤ) : (intRange a b).Pairwise (· < ·) := by
  unfold intRange
  rw [List.pairwise_map]
  exact List.pairwise_lt_range.imp (by intro x y h; omega)

theorem intRange_empty {a b : ℤ} (h : b ≤ a) : intRange a b = [] := by
  have : (b - a).toNat = 0 := by omega
  simp [intRange, this]

theorem intRange_succ {a b : ℤ} (h : a ≤ b) : intRange a (b + 1) = intRange a b ++ [b] := by
  have e : (b + 1 - a).toNat = (b - a).toNat + 1 := by omega
  have e2 : a + ((b - a).toNat : ℤ) = b := by omega
  simp only [intRange, e, List.range_succ, List.map_append, List.map_cons, List.map_nil, e2]

/-! ### copy loop and restore -/

theorem length_copyLoop {α : Type} : ∀ s t : List α, (copyLoop s t).length = t.length
  | [], t => by simp [copyLoop]
  | _ :: _, [] => by simp [copyLoop]
  | _ :: ss, _ :: ts => by simp [copyLoop, length_copyLoop ss ts]

theorem getElem?_copyLoop {α : Type} : ∀ (s t : List α) (i : Nat), i < t.length →
    (copyLoop s t)[i]? = if i < s.length then s[i]? else t[i]?
  | [], t, i, _ => by simp [copyLoop]
  | _ :: _, [], i, h => by simp at h
  | s :: ss, t :: ts, 0, _ => by simp [copyLoop]
  | s :: ss, t :: ts, i + 1, h => by
    have := getElem?_copyLoop ss ts i (by simpa using h)
    simp only [copyLoop, List.getElem?_cons_succ, this, List.length_cons, Nat.add_lt_add_iff_right]

/-! ### adding peaks -/

/-- Value of an array with first step `clo` at step `n` (zero outside). -/
def at_ (clo : ℤ) (v : List K) (n : ℤ) : K := if clo ≤ n then v.getD (n - clo).toNat 0 else 0

theorem length_foldl_modify (f : ℤ → K) (ks : List ℤ) : ∀ v : List K,
    (ks.foldl (fun v k => v.modify k.toNat (· + f k)) v).length = v.length := by
  induction ks with
  | nil => intro v; rfl
  | cons k ks ih => intro v; simp [List.foldl_cons, ih]

theorem getD_modify (v : List K) (k i : Nat) (c : K) (hk : k < v.length) :
    (v.modify k (· + c)).getD i 0 = v.getD i 0 + if i = k then c else 0 := by
  simp only [List.getD_eq_getElem?_getD, List.getElem?_modify]
  by_cases h : i = k
  · subst h; simp [hk]
  · have : ¬ k = i := fun e => h e.symm
    simp [h, this]

theorem getD_foldl_modify (f : ℤ → K) (a : ℤ) (ha : 0 ≤ a) : ∀ (m : Nat) (v : List K) (i : Nat),
    a + m ≤ v.length →
    ((intRange a (a + m)).foldl (fun v k => v.modify k.toNat (· + f k)) v).getD i 0 =
      v.getD i 0 + if a ≤ i ∧ (i : ℤ) < a + m then f i else 0 := by
  intro m
  induction m with
  | zero => intro v i _; rw [intRange_empty (by simp)]; simp
  | succ m ih =>
    intro v i h
    have e : a + ((m + 1 : Nat) : ℤ) = a + m + 1 := by push_cast; ring
    rw [e, intRange_succ (by omega), List.foldl_append, List.foldl_cons, List.foldl_nil,
      getD_modify _ _ _ _ (by rw [length_foldl_modify]; omega), ih v i (by omega)]
    by_cases h1 : i = (a + m).toNat
    · subst h1
      have e1 : (((a + (m : ℤ)).toNat : Nat) : ℤ) = a + m := by omega
      simp [e1]
    · simp only [h1, if_false, add_zero]
      congr 1
      by_cases h2 : a ≤ i ∧ (i : ℤ) < a + m
      · rw [if_pos h2, if_pos (by omega)]
      · rw [if_neg h2, if_neg (by omega)]

theorem length_addPeak (pf : Prof K) (dr : K) (l : Limits) (v : List K) (pk : Peak K) :
    (addPeak pf dr l v pk).length = v.length := by
  unfold addPeak
  exact length_foldl_modify (fun k => peakAt pf dr pk (l.clo + k)) _ v

/-- The steps a peak is written to: floor of both profile bounds, inclusive. -/
def covers (pf : Prof K) (dr : K) (pk : Peak K) (n : ℤ) : Prop :=
  ⌊(pk.dist + pf.lo pk.fwhm) / dr⌋ ≤ n ∧ n ≤ ⌊(pk.dist + pf.hi pk.fwhm) / dr⌋

instance (pf : Prof K) (dr : K) (pk : Peak K) (n : ℤ) : Decidable (covers pf dr pk n) := by
  unfold covers; infer_instance

theorem at_addPeak (pf : Prof K) (dr : K) (l : Limits) (v : List K) (pk : Peak K)
    (hl : (v.length : ℤ) = l.count) (n : ℤ) :
    at_ l.clo (addPeak pf dr l v pk) n =
      at_ l.clo v n + if l.clo ≤ n ∧ n < l.chi ∧ covers pf dr pk n then peakAt pf dr pk n else 0 := by
  unfold at_
  by_cases hn : l.clo ≤ n
  swap
  · simp [hn]
  simp only [hn, if_true, true_and]
  unfold addPeak
  simp only
  set i := max 0 (calcIndex l.clo dr (pk.dist + pf.lo pk.fwhm)) with hi
  set il := min l.count (calcIndex l.clo dr (pk.dist + pf.hi pk.fwhm) + 1) with hil
  have hc : l.count = l.chi - l.clo := rfl
  have hi0 : 0 ≤ i := le_max_left _ _
  have hil0 : il ≤ l.count := min_le_left _ _
  rcases le_total i il with hle | hle
  · have e : il = i + ((il - i).toNat : ℤ) := by omega
    rw [e, getD_foldl_modify (fun k => peakAt pf dr pk (l.clo + k)) i hi0 _ v _ (by omega)]
    congr 1
    have e2 : (((n - l.clo).toNat : Nat) : ℤ) = n - l.clo := by omega
    rw [← e, e2]
    have e3 : l.clo + (n - l.clo) = n := by ring
    rw [e3]
    refine if_congr ?_ rfl rfl
    rw [hi, hil]
    unfold covers calcIndex
    omega
  · rw [intRange_empty hle, List.foldl_nil, if_neg, add_zero]
    rintro ⟨h1, h2⟩
    unfold covers at h2
    rw [hi, hil] at hle
    unfold calcIndex at hle
    omega

theorem length_foldl_addPeak (pf : Prof K) (dr : K) (l : Limits) (ps : List (Peak K)) :
    ∀ v : List K, (ps.foldl (addPeak pf dr l) v).length = v.length := by
  induction ps with
  | nil => intro v; rfl
  | cons p ps ih => intro v; rw [List.foldl_cons, ih, length_addPeak]

theorem at_foldl_addPeak (pf : Prof K) (dr : K) (l : Limits) (ps : List (Peak K)) :
    ∀ v : List K, (v.length : ℤ) = l.count → ∀ n,
    at_ l.clo (ps.foldl (addPeak pf dr l) v) n = at_ l.clo v n +
      (ps.map fun pk => if l.clo ≤ n ∧ n < l.chi ∧ covers pf dr pk n then peakAt pf dr pk n
        else 0).sum := by
  induction ps with
  | nil => intro v _ n; simp
  | cons p ps ih =>
    intro v hv n
    rw [List.foldl_cons, ih _ (by rw [length_addPeak]; exact hv), at_addPeak _ _ _ _ _ hv,
      List.map_cons, List.sum_cons, add_assoc]

theorem at_replicate (clo n : ℤ) (m : Nat) : at_ clo (List.replicate m (0 : K)) n = 0 := by
  unfold at_
  split
  · simp [List.getD_eq_getElem?_getD, List.getElem?_replicate]
    split <;> simp
  · rfl

theorem sum_filter_map (ps : List (Peak K)) (q : Peak K → Bool) (f : Peak K → K)
    (h : ∀ p ∈ ps, q p = false → f p = 0) : ((ps.filter q).map f).sum = (ps.map f).sum := by
  induction ps with
  | nil => rfl
  | cons p ps ih =>
    have ih' := ih (fun x hx => h x (List.mem_cons_of_mem _ hx))
    by_cases hq : q p = true
    · rw [List.filter_cons_of_pos hq, List.map_cons, List.sum_cons, List.map_cons, List.sum_cons, ih']
    · rw [List.filter_cons_of_neg hq, List.map_cons, List.sum_cons, ih',
        h p (List.mem_cons_self) (by simpa using hq), zero_add]

end Verif.PDFGrid
