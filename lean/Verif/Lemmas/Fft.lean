import Verif.Model.Fft
import Verif.Lemmas.PDFGrid
import Mathlib.Tactic.LinearCombination
import Mathlib.Algebra.BigOperators.Intervals
/-! Lemmas on the Fourier transformations. -/
namespace Verif.Fft
open Verif.PDFGrid Classical Finset

theorem pad2_eq (n : Nat) : pad2 n = 2 ^ Nat.clog 2 n := by
  unfold pad2
  congr 1
  have h := Real.natCeil_logb_natCast 2 n
  rw [← h]
  rfl

theorem le_pad2 (n : Nat) : n ≤ pad2 n := by
  rw [pad2_eq]; exact Nat.le_pow_clog (by norm_num) n

theorem pad2_pos (n : Nat) : 0 < pad2 n := by rw [pad2_eq]; positivity

theorem pad2_lt (n : Nat) (h : 0 < n) : pad2 n < 2 * n := by
  rw [pad2_eq]
  rcases Nat.lt_or_ge 1 n with h1 | h1
  · have := Nat.pow_pred_clog_lt_self (b := 2) (by norm_num) h1
    have hc : 0 < Nat.clog 2 n := Nat.clog_pos (by norm_num) h1
    calc 2 ^ Nat.clog 2 n = 2 * 2 ^ (Nat.clog 2 n - 1) := by
          rw [← pow_succ']; congr 1; omega
      _ < 2 * n := by rw [Nat.pred_eq_sub_one] at this; omega
  · have : n = 1 := by omega
    subst this; simp

theorem pad2_pad2 (n : Nat) : pad2 (pad2 n) = pad2 n := by
  rw [pad2_eq (pad2 n), pad2_eq n, Nat.clog_pow _ _ (by norm_num)]

/-! ### the padded array -/

theorem length_copyLo : ∀ (g : List ℝ) (p : Nat) (a : List ℂ), (copyLo g p a).length = a.length
  | [], _, _ => rfl
  | x :: xs, p, a => by rw [copyLo, length_copyLo xs]; simp

theorem length_copyHi (N : Nat) : ∀ (m i : Nat) (a : List ℂ), (copyHi N m i a).length = a.length
  | 0, _, _ => rfl
  | m + 1, i, a => by rw [copyHi, length_copyHi N m]; simp

theorem getD_set (a : List ℂ) (i j : Nat) (x : ℂ) (h : i < a.length) :
    (a.set i x).getD j 0 = if j = i then x else a.getD j 0 := by
  simp only [List.getD_eq_getElem?_getD, List.getElem?_set]
  by_cases hj : j = i
  · subst hj; simp [h]
  · have : ¬ i = j := fun e => hj e.symm
    simp [hj, this]

theorem getD_copyLo : ∀ (g : List ℝ) (p : Nat) (a : List ℂ), p + g.length ≤ a.length → ∀ j,
    (copyLo g p a).getD j 0 = if p ≤ j ∧ j < p + g.length then ((g.getD (j - p) 0 : ℝ) : ℂ) else a.getD j 0
  | [], p, a, _, j => by simp [copyLo]
  | x :: xs, p, a, h, j => by
    rw [List.length_cons] at h
    rw [copyLo, getD_copyLo xs (p + 1) _ (by rw [List.length_set]; omega) j, getD_set _ _ _ _ (by omega)]
    rcases Nat.lt_trichotomy j p with h1 | h1 | h1
    · rw [if_neg (by omega), if_neg (by omega), if_neg (by omega)]
    · subst h1
      rw [if_neg (by omega), if_pos rfl, if_pos (by simp)]
      simp
    · by_cases h2 : j < p + 1 + xs.length
      · rw [if_pos (by omega), if_pos (by rw [List.length_cons]; omega)]
        have : j - p = (j - (p + 1)) + 1 := by omega
        rw [this, List.getD_cons_succ]
      · rw [if_neg (by omega), if_neg (by omega), if_neg (by rw [List.length_cons]; omega)]

theorem getD_copyHi (N : Nat) : ∀ (m i : Nat) (a : List ℂ), a.length = 2 * N → m + i = N → 1 ≤ i →
    ∀ j, (copyHi N m i a).getD j 0 =
      if N < j ∧ j ≤ 2 * N - i then -(a.getD (2 * N - j) 0) else a.getD j 0
  | 0, i, a, _, h, _, j => by
    rw [copyHi, if_neg (by omega)]
  | m + 1, i, a, ha, h, hi, j => by
    rw [copyHi, getD_copyHi N m (i + 1) _ (by simpa using ha) (by omega) (by omega) j,
      getD_set _ _ _ _ (by omega), getD_set _ _ _ _ (by omega)]
    by_cases h1 : N < j ∧ j ≤ 2 * N - (i + 1)
    · rw [if_pos h1, if_neg (by omega), if_pos (by omega)]
    · rw [if_neg h1]
      by_cases h2 : j = 2 * N - i
      · rw [if_pos h2, if_pos (by omega)]
        have : 2 * N - j = i := by omega
        rw [this]; ring
      · rw [if_neg h2, if_neg (by omega)]

/-- The padded signal as a function of the step: `g` starting at step `pad`, zero elsewhere. -/
def sig (g : List ℝ) (pad : Nat) (j : Nat) : ℝ :=
  if pad ≤ j ∧ j < pad + g.length then g.getD (j - pad) 0 else 0

theorem length_padded (g : List ℝ) (pad N : Nat) : (padded g pad N).length = 2 * N := by
  unfold padded; rw [length_copyHi, length_copyLo, List.length_replicate]

theorem getD_padded (g : List ℝ) (pad N : Nat) (hN : 0 < N) (h : pad + g.length ≤ N) (j : Nat)
    (hj : j < 2 * N) :
    (padded g pad N).getD j 0 =
      ((if j < N then sig g pad j else if j = N then 0 else -sig g pad (2 * N - j) : ℝ) : ℂ) := by
  have hlo : ∀ k, (copyLo g pad (List.replicate (2 * N) 0)).getD k 0 = ((sig g pad k : ℝ) : ℂ) := by
    intro k
    rw [getD_copyLo _ _ _ (by rw [List.length_replicate]; omega)]
    unfold sig
    split
    · rfl
    · simp only [List.getD_eq_getElem?_getD, List.getElem?_replicate]
      split <;> simp
  unfold padded
  rw [getD_copyHi N _ _ _ (by rw [length_copyLo, List.length_replicate]) (by omega) (by omega), hlo, hlo]
  by_cases h1 : j < N
  · rw [if_neg (by omega), if_pos h1]
  · rw [if_neg h1]
    by_cases h2 : j = N
    · rw [if_neg (by omega), if_pos h2]
      subst h2
      unfold sig; rw [if_neg (by omega)]
    · rw [if_pos (by omega), if_neg h2]; push_cast; rfl

theorem im_sum_exp (n : Nat) (c : Nat → ℝ) (t : Nat → ℝ) :
    (∑ j ∈ range n, ((c j : ℝ) : ℂ) * Complex.exp ((t j : ℝ) * Complex.I)).im =
      ∑ j ∈ range n, c j * Real.sin (t j) := by
  rw [Complex.im_sum]
  apply Finset.sum_congr rfl
  intro j _
  rw [Complex.im_ofReal_mul, Complex.exp_ofReal_mul_I_im]

/-- An odd extension doubles the sine sum. -/
theorem odd_extension (s : Nat → ℝ) (N k : Nat) (hN : 0 < N) :
    ∑ j ∈ range (2 * N), (if j < N then s j else if j = N then 0 else -s (2 * N - j)) *
        Real.sin (Real.pi * j * k / N) =
      2 * ∑ j ∈ range N, s j * Real.sin (Real.pi * j * k / N) := by
  have hN' : (N : ℝ) ≠ 0 := by positivity
  have e : 2 * N = N + N := by ring
  rw [e, Finset.sum_range_add, two_mul]
  congr 1
  · apply Finset.sum_congr rfl
    intro j hj
    rw [if_pos (Finset.mem_range.1 hj)]
  · obtain ⟨M, rfl⟩ : ∃ M, N = M + 1 := ⟨N - 1, by omega⟩
    rw [Finset.sum_range_succ', Finset.sum_range_succ' (fun j => s j * _)]
    congr 1
    · rw [← Finset.sum_range_reflect]
      apply Finset.sum_congr rfl
      intro j hj
      have hj' := Finset.mem_range.1 hj
      rw [if_neg (by omega), if_neg (by omega)]
      have e1 : M + 1 + (M + 1) - (M + 1 + (M - 1 - j + 1)) = j + 1 := by omega
      rw [e1]
      have e2 : Real.pi * ((M + 1 + (M - 1 - j + 1) : ℕ) : ℝ) * k / ((M + 1 : ℕ) : ℝ) =
          (k : ℝ) * (2 * Real.pi) - Real.pi * ((j + 1 : ℕ) : ℝ) * k / ((M + 1 : ℕ) : ℝ) := by
        have e3 : ((M + 1 + (M - 1 - j + 1) : ℕ) : ℝ) = 2 * ((M + 1 : ℕ) : ℝ) - ((j + 1 : ℕ) : ℝ) := by
          have : (M + 1 + (M - 1 - j + 1) : ℕ) = 2 * (M + 1) - (j + 1) := by omega
          rw [this, Nat.cast_sub (by omega)]; push_cast; ring
        rw [e3]; field_simp
      rw [e2, Real.sin_nat_mul_two_pi_sub]
      ring
    · simp

/-- Cosine sums over half a period. -/
theorem cos_sum (N : Nat) (hN : 0 < N) (m : ℤ) (hm : ¬ (2 * N : ℤ) ∣ m) :
    ∑ k ∈ range N, Real.cos (Real.pi * m * k / N) = (1 - (-1) ^ m.natAbs) / 2 := by
  have hN' : (N : ℝ) ≠ 0 := by positivity
  set th : ℝ := Real.pi * m / N with hth
  have hs : Real.sin (th / 2) ≠ 0 := by
    rw [Real.sin_ne_zero_iff]
    intro n hn
    apply hm
    have : (n : ℝ) * (2 * N) = m := by
      have hp := Real.pi_ne_zero
      rw [hth] at hn
      field_simp at hn
      linarith
    refine ⟨n, ?_⟩
    have : ((n * (2 * N) : ℤ) : ℝ) = (m : ℝ) := by push_cast; linarith
    have := Int.cast_injective this
    linarith
  have tele : ∀ n : Nat, 2 * Real.sin (th / 2) * ∑ k ∈ range n, Real.cos (th * k) =
      Real.sin (th * n - th / 2) + Real.sin (th / 2) := by
    intro n
    induction n with
    | zero => simp [Real.sin_neg]
    | succ n ih =>
      rw [Finset.sum_range_succ, mul_add, ih]
      have e1 : th * ((n + 1 : ℕ) : ℝ) - th / 2 = th * n + th / 2 := by push_cast; ring
      rw [e1, Real.sin_add, Real.sin_sub]
      ring
  have h := tele N
  have e2 : th * N - th / 2 = (m : ℝ) * Real.pi - th / 2 := by rw [hth]; field_simp
  rw [e2, Real.sin_sub, Real.sin_int_mul_pi, Real.cos_int_mul_pi] at h
  have e3 : ((-1 : ℝ) ^ m) = (-1) ^ m.natAbs := by
    rcases Int.natAbs_eq m with hc | hc
    · conv_lhs => rw [hc]
      rw [zpow_natCast]
    · conv_lhs => rw [hc]
      rw [zpow_neg, zpow_natCast, ← inv_pow]; norm_num
  rw [e3] at h
  have e4 : ∑ k ∈ range N, Real.cos (Real.pi * m * k / N) = ∑ k ∈ range N, Real.cos (th * k) := by
    apply Finset.sum_congr rfl; intro k _; congr 1; rw [hth]; ring
  rw [e4]
  have : 2 * Real.sin (th / 2) * (∑ k ∈ range N, Real.cos (th * k)) =
      2 * Real.sin (th / 2) * ((1 - (-1) ^ m.natAbs) / 2) := by rw [h]; ring
  exact mul_left_cancel₀ (mul_ne_zero two_ne_zero hs) this

/-- Orthogonality of the sines on the grid. -/
theorem sine_orthogonal (N : Nat) (hN : 0 < N) (l j : Nat) (hl : l < N) (hj : j < N) :
    ∑ k ∈ range N, Real.sin (Real.pi * l * k / N) * Real.sin (Real.pi * j * k / N) =
      if l = j ∧ 0 < j then (N : ℝ) / 2 else 0 := by
  have hN' : (N : ℝ) ≠ 0 := by positivity
  have prod : ∀ k : Nat, Real.sin (Real.pi * l * k / N) * Real.sin (Real.pi * j * k / N) =
      (Real.cos (Real.pi * ((l - j : ℤ) : ℝ) * k / N) - Real.cos (Real.pi * ((l + j : ℤ) : ℝ) * k / N)) / 2 := by
    intro k
    have e1 : Real.pi * ((l - j : ℤ) : ℝ) * k / N = Real.pi * l * k / N - Real.pi * j * k / N := by
      push_cast; ring
    have e2 : Real.pi * ((l + j : ℤ) : ℝ) * k / N = Real.pi * l * k / N + Real.pi * j * k / N := by
      push_cast; ring
    rw [e1, e2, Real.cos_sub, Real.cos_add]; ring
  simp only [prod]
  rw [← Finset.sum_div, Finset.sum_sub_distrib]
  rcases Nat.eq_zero_or_pos l with h0 | h0
  · subst h0
    rw [if_neg (by omega)]
    have : ∀ k : Nat, Real.cos (Real.pi * (((0 : ℕ) - j : ℤ) : ℝ) * k / N) =
        Real.cos (Real.pi * (((0 : ℕ) + j : ℤ) : ℝ) * k / N) := by
      intro k
      rw [← Real.cos_neg]; congr 1; push_cast; ring
    simp only [this, sub_self, zero_div]
  · by_cases hlj : l = j
    · subst hlj
      rw [if_pos ⟨rfl, h0⟩, cos_sum N hN ((l : ℤ) + l) (by
        rintro ⟨c, hc⟩
        have : c = 0 ∨ c ≥ 1 ∨ c ≤ -1 := by omega
        rcases this with h | h | h
        · subst h; omega
        · nlinarith
        · nlinarith)]
      have e : ((l : ℤ) + l).natAbs = 2 * l := by omega
      rw [e, pow_mul]
      simp
    · rw [if_neg (by omega)]
      have nd : ∀ m : ℤ, m ≠ 0 → -(2 * N) < m → m < 2 * N → ¬ (2 * N : ℤ) ∣ m := by
        rintro m h1 h2 h3 ⟨c, hc⟩
        have : c = 0 ∨ c ≥ 1 ∨ c ≤ -1 := by omega
        rcases this with h | h | h
        · subst h; omega
        · nlinarith
        · nlinarith
      rw [cos_sum N hN _ (nd _ (by omega) (by omega) (by omega)),
        cos_sum N hN _ (nd _ (by omega) (by omega) (by omega))]
      have e : ((-1 : ℝ)) ^ ((l : ℤ) - j).natAbs = (-1) ^ ((l : ℤ) + j).natAbs := by
        rcases le_total l j with h | h
        · have e1 : ((l : ℤ) - j).natAbs = j - l := by omega
          have e2 : ((l : ℤ) + j).natAbs = (j - l) + 2 * l := by omega
          rw [e1, e2, pow_add, pow_mul]; simp
        · have e1 : ((l : ℤ) - j).natAbs = l - j := by omega
          have e2 : ((l : ℤ) + j).natAbs = (l - j) + 2 * j := by omega
          rw [e1, e2, pow_add, pow_mul]; simp
      rw [e]; ring

end Verif.Fft
