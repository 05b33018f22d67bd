import Verif.Model.DoubleCmp
import Verif.Props.Double
import Mathlib.Tactic.ByContra
import Mathlib.Tactic.Push
import Mathlib.Data.Rat.Floor
/-! C104: comparisons with a tolerance, and wrapping into the unit cell, in double precision. -/
namespace Verif.Double
open Verif.Rounding

/-! ### Specification -/

/-- `x` is a number that a double can hold. -/
def IsDouble (x : ℚ) : Prop := ∃ m e : ℤ, |m| < 2 ^ 53 ∧ x = m * 2 ^ e

/-! ### Rounding to double -/

theorem rne_mono {x y : ℚ} (h : x ≤ y) : rne x ≤ rne y := by
  have hx := Int.floor_le x
  have hy := Int.floor_le y
  have hx' := Int.lt_floor_add_one x
  have hy' := Int.lt_floor_add_one y
  have hf : ⌊x⌋ ≤ ⌊y⌋ := Int.floor_le_floor h
  have up : ∀ z : ℚ, ⌊z⌋ ≤ rne z ∧ rne z ≤ ⌊z⌋ + 1 := by
    intro z
    unfold rne
    split_ifs <;> constructor <;> omega
  rcases hf.lt_or_eq with hlt | heq
  · have := (up x).2
    have := (up y).1
    omega
  · unfold rne
    rw [heq] at hx hx' ⊢
    split_ifs <;> first | omega | (exfalso; linarith)

theorem rne_neg (y : ℚ) : rne (-y) = -rne y := by
  by_cases hz : (⌊y⌋ : ℚ) = y
  · rw [← hz, rne_int, ← Int.cast_neg, rne_int]
  have h1 := Int.floor_le y
  have h2 := Int.lt_floor_add_one y
  have h3 : (⌊y⌋ : ℚ) < y := lt_of_le_of_ne h1 hz
  have hf : ⌊-y⌋ = -⌊y⌋ - 1 := by
    rw [Int.floor_eq_iff]
    push_cast
    constructor <;> linarith
  unfold rne
  rw [hf]
  push_cast
  split_ifs <;> first | omega | (exfalso; linarith)

theorem ulp_neg (x : ℚ) : ulp (-x) = ulp x := by
  unfold ulp
  rw [abs_neg]

theorem fl64_neg (x : ℚ) : fl64 (-x) = -fl64 x := by
  unfold fl64
  rw [ulp_neg, neg_div, rne_neg]
  push_cast
  ring

theorem fl64_zero : fl64 0 = 0 := by
  have := fl64_exact 0 0 (by norm_num)
  simpa using this

theorem isDouble_exact {x : ℚ} (h : IsDouble x) : fl64 x = x := by
  obtain ⟨m, e, hm, rfl⟩ := h
  exact fl64_exact m e hm

/-- The scaled value lies between two powers of 2. -/
theorem scaled {x : ℚ} (hx : 0 < x) : (2 : ℚ) ^ 52 ≤ x / ulp x ∧ x / ulp x < 2 ^ 53 := by
  have h1 : (2 : ℚ) ^ Int.log 2 |x| ≤ |x| := by exact_mod_cast Int.zpow_log_le_self (b := 2) (by norm_num) (abs_pos.2 hx.ne')
  have h2 : |x| < (2 : ℚ) ^ (Int.log 2 |x| + 1) := by exact_mod_cast Int.lt_zpow_succ_log_self (b := 2) (by norm_num) |x|
  rw [abs_of_pos hx] at h1 h2
  have hu := ulp_pos x
  have e : (2 : ℚ) ^ Int.log 2 x = 2 ^ 52 * ulp x := by
    unfold ulp
    rw [abs_of_pos hx, zpow_sub₀ (by norm_num)]
    norm_num
    ring
  rw [zpow_add₀ (by norm_num)] at h2
  rw [le_div_iff₀ hu, div_lt_iff₀ hu]
  constructor
  · linarith
  · have : (2 : ℚ) ^ 53 = 2 ^ 52 * 2 := by norm_num
    rw [this]
    linarith

theorem rne_scaled {x : ℚ} (hx : 0 < x) : 2 ^ 52 ≤ rne (x / ulp x) ∧ rne (x / ulp x) ≤ 2 ^ 53 := by
  obtain ⟨h1, h2⟩ := scaled hx
  have a := rne_mono h1
  have b := rne_mono h2.le
  have e1 : rne ((2 : ℚ) ^ 52) = 2 ^ 52 := by have := rne_int (2 ^ 52); push_cast at this; exact this
  have e2 : rne ((2 : ℚ) ^ 53) = 2 ^ 53 := by have := rne_int (2 ^ 53); push_cast at this; exact this
  rw [e1] at a
  rw [e2] at b
  exact ⟨a, b⟩

/-- The result of rounding is a double. -/
theorem fl64_isDouble (x : ℚ) : IsDouble (fl64 x) := by
  have pos : ∀ x : ℚ, 0 < x → IsDouble (fl64 x) := by
    intro x hx
    obtain ⟨h1, h2⟩ := rne_scaled hx
    rcases h2.lt_or_eq with h | h
    · refine ⟨rne (x / ulp x), Int.log 2 |x| - 52, ?_, rfl⟩
      rw [abs_of_nonneg (by omega)]
      exact h
    · refine ⟨1, 53 + (Int.log 2 |x| - 52), by norm_num, ?_⟩
      unfold fl64
      rw [h, zpow_add₀ (by norm_num)]
      unfold ulp
      push_cast
      norm_num
  rcases lt_trichotomy x 0 with h | rfl | h
  · obtain ⟨m, e, hm, he⟩ := pos (-x) (by linarith)
    rw [fl64_neg] at he
    refine ⟨-m, e, by rwa [abs_neg], ?_⟩
    push_cast
    linarith
  · rw [fl64_zero]
    exact ⟨0, 0, by norm_num, by norm_num⟩
  · exact pos x h

theorem fl64_iff (x : ℚ) : fl64 x = x ↔ IsDouble x := ⟨fun h => h ▸ fl64_isDouble x, isDouble_exact⟩

/-- Rounding keeps the order. -/
theorem fl64_mono {x y : ℚ} (h : x ≤ y) : fl64 x ≤ fl64 y := by
  have nonneg : ∀ x : ℚ, 0 ≤ x → 0 ≤ fl64 x := by
    intro x hx
    rcases hx.lt_or_eq with hx | rfl
    · have := (rne_scaled hx).1
      have h0 : (0 : ℤ) ≤ rne (x / ulp x) := by omega
      exact mul_nonneg (by exact_mod_cast h0) (ulp_pos x).le
    · rw [fl64_zero]
  have pos : ∀ x y : ℚ, 0 < x → x ≤ y → fl64 x ≤ fl64 y := by
    intro x y hx h
    have hy := lt_of_lt_of_le hx h
    have hlog : Int.log 2 |x| ≤ Int.log 2 |y| := by
      rw [abs_of_pos hx, abs_of_pos hy]
      exact Int.log_mono_right hx h
    rcases hlog.lt_or_eq with hl | hl
    · have h1 : ((rne (x / ulp x) : ℤ) : ℚ) ≤ 2 ^ 53 := by exact_mod_cast (rne_scaled hx).2
      have h2 : (2 : ℚ) ^ 52 ≤ ((rne (y / ulp y) : ℤ) : ℚ) := by exact_mod_cast (rne_scaled hy).1
      have e : 2 * ulp x ≤ ulp y := by
        unfold ulp
        have e : (2 : ℚ) * 2 ^ (Int.log 2 |x| - 52) = 2 ^ (Int.log 2 |x| - 52 + 1) := by
          rw [zpow_add₀ (by norm_num)]
          ring
        rw [e]
        exact zpow_le_zpow_right₀ (by norm_num) (by omega)
      calc fl64 x ≤ 2 ^ 53 * ulp x := mul_le_mul_of_nonneg_right h1 (ulp_pos x).le
        _ = 2 ^ 52 * (2 * ulp x) := by ring
        _ ≤ 2 ^ 52 * ulp y := mul_le_mul_of_nonneg_left e (by positivity)
        _ ≤ fl64 y := mul_le_mul_of_nonneg_right h2 (ulp_pos y).le
    · have e : ulp x = ulp y := by
        unfold ulp
        rw [hl]
      unfold fl64
      rw [e]
      refine mul_le_mul_of_nonneg_right ?_ (ulp_pos y).le
      have := rne_mono (div_le_div_of_nonneg_right h (ulp_pos y).le)
      exact_mod_cast this
  rcases lt_or_ge 0 x with hx | hx
  · exact pos x y hx h
  rcases lt_or_ge y 0 with hy | hy
  · have := pos (-y) (-x) (by linarith) (by linarith)
    rw [fl64_neg, fl64_neg] at this
    linarith
  · have h1 := nonneg y hy
    have h2 := nonneg (-x) (by linarith)
    rw [fl64_neg] at h2
    linarith

theorem fl64_le {x d : ℚ} (hd : IsDouble d) (h : x ≤ d) : fl64 x ≤ d := (fl64_mono h).trans_eq (isDouble_exact hd)

theorem le_fl64 {x d : ℚ} (hd : IsDouble d) (h : d ≤ x) : d ≤ fl64 x := (isDouble_exact hd).symm.trans_le (fl64_mono h)

/-! ### Comparisons -/

variable {x y z tol : ℚ}

/-- Equality with a tolerance is symmetric, and reflexive for a tolerance that is not negative. -/
theorem epsEq_comm : epsEqF fl64 x y tol ↔ epsEqF fl64 y x tol := by
  unfold epsEqF
  rw [← neg_sub y x, fl64_neg, abs_neg]

theorem epsEq_refl (ht : 0 ≤ tol) : epsEqF fl64 x x tol := by
  unfold epsEqF
  rw [sub_self, fl64_zero, abs_zero]
  exact ht

/-- "Less with a tolerance" is a strict order: what `std::sort`, `std::set` and `std::lower_bound` need. -/
theorem epsLt_irrefl (ht : 0 ≤ tol) (hx : IsDouble x) : ¬ epsLtF fl64 x x tol := by
  unfold epsLtF
  exact not_lt.2 (fl64_le hx (by linarith))

theorem epsLt_trans (ht : 0 ≤ tol) (hy : IsDouble y) (h1 : epsLtF fl64 x y tol) (h2 : epsLtF fl64 y z tol) : epsLtF fl64 x z tol := by
  unfold epsLtF at h1 h2 ⊢
  exact (h1.trans_le (fl64_le hy (by linarith))).trans h2

theorem epsLt_lt (ht : 0 ≤ tol) (hy : IsDouble y) (h : epsLtF fl64 x y tol) : x < y := lt_of_lt_of_le h (fl64_le hy (by linarith))

theorem epsGt_gt (ht : 0 ≤ tol) (hy : IsDouble y) (h : epsGtF fl64 x y tol) : y < x := lt_of_le_of_lt (le_fl64 hy (by linarith)) h

theorem epsGt_trans (ht : 0 ≤ tol) (hy : IsDouble y) (h1 : epsGtF fl64 x y tol) (h2 : epsGtF fl64 y z tol) : epsGtF fl64 x z tol := by
  unfold epsGtF at h1 h2 ⊢
  exact h2.trans (lt_of_le_of_lt (le_fl64 hy (by linarith)) h1)

/-- No two doubles are less and greater at once. -/
theorem epsLt_not_gt (ht : 0 ≤ tol) (hy : IsDouble y) (h : epsLtF fl64 x y tol) : ¬ epsGtF fl64 x y tol :=
  fun h' => lt_asymm (epsLt_lt ht hy h) (epsGt_gt ht hy h')

/-- A value between two equal ones is equal to both: there are no gaps in the tolerance. -/
theorem epsEq_between (h1 : x ≤ y) (h2 : y ≤ z) (h : epsEqF fl64 x z tol) : epsEqF fl64 x y tol ∧ epsEqF fl64 y z tol := by
  unfold epsEqF at h ⊢
  have key : ∀ a b : ℚ, b ≤ a → a ≤ 0 → |fl64 a| ≤ |fl64 b| := by
    intro a b hab ha
    have h0 : fl64 a ≤ 0 := by
      have := fl64_mono ha
      rwa [fl64_zero] at this
    rw [abs_of_nonpos h0, abs_of_nonpos ((fl64_mono hab).trans h0)]
    linarith [fl64_mono hab]
  exact ⟨(key _ _ (by linarith) (by linarith)).trans h, (key _ _ (by linarith) (by linarith)).trans h⟩

/-- More than the tolerance above `z`: everything above it is, too. -/
theorem epsGt_above (h1 : x ≤ y) (h : epsGtF fl64 x z tol) : epsGtF fl64 y z tol := lt_of_lt_of_le h h1

/-- Numbers on a common grid that is not too fine for their size, such as multiples of 2⁻²⁶ below 2²⁶, are compared as over the reals;
exactly one of the three relations holds. -/
theorem compare_grid (a b t e : ℤ) (h1 : |a - b| < 2 ^ 53) (h2 : |b| + |t| < 2 ^ 53) (ht : 0 ≤ t) :
    let g : ℤ → ℚ := fun n => n * 2 ^ e
    (epsEqF fl64 (g a) (g b) (g t) ↔ |g a - g b| ≤ g t) ∧ (epsGtF fl64 (g a) (g b) (g t) ↔ g a > g b + g t) ∧
    (epsLtF fl64 (g a) (g b) (g t) ↔ g a < g b - g t) ∧
    ((epsEqF fl64 (g a) (g b) (g t) ∧ ¬ epsGtF fl64 (g a) (g b) (g t) ∧ ¬ epsLtF fl64 (g a) (g b) (g t)) ∨
     (¬ epsEqF fl64 (g a) (g b) (g t) ∧ epsGtF fl64 (g a) (g b) (g t) ∧ ¬ epsLtF fl64 (g a) (g b) (g t)) ∨
     (¬ epsEqF fl64 (g a) (g b) (g t) ∧ ¬ epsGtF fl64 (g a) (g b) (g t) ∧ epsLtF fl64 (g a) (g b) (g t))) := by
  intro g
  have e1 : fl64 (g a - g b) = g a - g b := by
    have := fl64_exact (a - b) e h1
    simp only [g]
    rw [← sub_mul, ← Int.cast_sub]
    exact this
  have e2 : fl64 (g b + g t) = g b + g t := by
    have := fl64_exact (b + t) e ((abs_add_le b t).trans_lt h2)
    simp only [g]
    rw [← add_mul, ← Int.cast_add]
    exact this
  have e3 : fl64 (g b - g t) = g b - g t := by
    have := fl64_exact (b - t) e ((abs_sub b t).trans_lt h2)
    simp only [g]
    rw [← sub_mul, ← Int.cast_sub]
    exact this
  have ht : 0 ≤ g t := mul_nonneg (by exact_mod_cast ht) (zpow_pos (by norm_num) _).le
  unfold epsEqF epsGtF epsLtF
  rw [e1, e2, e3]
  refine ⟨Iff.rfl, Iff.rfl, Iff.rfl, ?_⟩
  rcases lt_or_ge (g b + g t) (g a) with h | h
  · right; left
    refine ⟨fun h' => ?_, h, not_lt.2 (by linarith)⟩
    have := (abs_le.1 h').2
    linarith
  · rcases lt_or_ge (g a) (g b - g t) with h' | h'
    · right; right
      refine ⟨fun h'' => ?_, not_lt.2 h, h'⟩
      have := (abs_le.1 h'').1
      linarith
    · left
      exact ⟨abs_le.2 ⟨by linarith, by linarith⟩, not_lt.2 h, not_lt.2 h'⟩

/-- Elsewhere the answers can differ from those over the reals within the rounding errors only. -/
theorem compare_rounded (ht : 0 ≤ tol) :
    (epsEqF fl64 x y tol → |x - y| ≤ tol * (1 + 1 / 2 ^ 52)) ∧ (|x - y| ≤ tol * (1 - 1 / 2 ^ 53) → epsEqF fl64 x y tol) ∧
    (epsGtF fl64 x y tol → x > y + tol - |y + tol| / 2 ^ 53) ∧ (x > y + tol + |y + tol| / 2 ^ 53 → epsGtF fl64 x y tol) ∧
    (epsLtF fl64 x y tol → x < y - tol + |y - tol| / 2 ^ 53) ∧ (x < y - tol - |y - tol| / 2 ^ 53 → epsLtF fl64 x y tol) := by
  have h1 := abs_le.1 (fl64_rounds (x - y))
  have h2 := abs_le.1 (fl64_rounds (y + tol))
  have h3 := abs_le.1 (fl64_rounds (y - tol))
  have h4 := fl64_rounds (x - y)
  unfold epsEqF epsGtF epsLtF
  have k1 : |x - y| ≤ |fl64 (x - y)| + |fl64 (x - y) - (x - y)| := by
    have := abs_sub_abs_le_abs_sub (x - y) (fl64 (x - y))
    rw [abs_sub_comm (x - y) (fl64 (x - y))] at this
    linarith
  have k2 : |fl64 (x - y)| ≤ |x - y| + |fl64 (x - y) - (x - y)| := by
    have := abs_sub_abs_le_abs_sub (fl64 (x - y)) (x - y)
    linarith
  refine ⟨fun h => ?_, fun h => ?_, fun h => ?_, fun h => ?_, fun h => ?_, fun h => ?_⟩
  · linarith
  · linarith
  · linarith [h2.1]
  · linarith [h2.2]
  · linarith [h3.2]
  · linarith [h3.1]

/-- Large numbers: two adjacent doubles above 2²⁷ that are neither equal nor one greater than the other. -/
theorem none_holds_bug : let y : ℚ := 2 ^ 27 + 1 / 2 ^ 25; let x : ℚ := 2 ^ 27 + 2 / 2 ^ 25
    IsDouble x ∧ IsDouble y ∧ ¬ epsEqF fl64 x y sqrtEpsF ∧ ¬ epsGtF fl64 x y sqrtEpsF ∧ ¬ epsLtF fl64 x y sqrtEpsF := by
  refine ⟨⟨2 ^ 51 + 1, -24, by norm_num, by norm_num⟩, ⟨2 ^ 52 + 1, -25, by norm_num, by norm_num⟩, ?_⟩
  unfold epsEqF epsGtF epsLtF sqrtEpsF
  decide +kernel

/-- Two numbers that are equal with the tolerance while one is greater. -/
theorem both_hold_bug : let y : ℚ := -(1 / 2 ^ 79); let x : ℚ := sqrtEpsF
    IsDouble x ∧ IsDouble y ∧ epsEqF fl64 x y sqrtEpsF ∧ epsGtF fl64 x y sqrtEpsF := by
  refine ⟨⟨1, -26, by norm_num, by norm_num [sqrtEpsF]⟩, ⟨-1, -79, by norm_num, by norm_num⟩, ?_⟩
  unfold epsEqF epsGtF sqrtEpsF
  decide +kernel

/-- "Less" is not the reverse of "greater". -/
theorem lt_not_gt_bug : let x : ℚ := 2 ^ 27; let y : ℚ := 2 ^ 27 + 1 / 2 ^ 25
    IsDouble x ∧ IsDouble y ∧ ¬ epsLtF fl64 x y sqrtEpsF ∧ epsGtF fl64 y x sqrtEpsF := by
  refine ⟨⟨1, 27, by norm_num, by norm_num⟩, ⟨2 ^ 52 + 1, -25, by norm_num, by norm_num⟩, ?_⟩
  unfold epsGtF epsLtF sqrtEpsF
  decide +kernel

/-! ### Wrapping into the unit cell -/

theorem eps_isDouble : IsDouble sqrtEpsF := ⟨1, -26, by norm_num, by norm_num [sqrtEpsF]⟩

theorem one_isDouble : IsDouble 1 := ⟨1, 0, by norm_num, by norm_num⟩

theorem zero_isDouble : IsDouble 0 := ⟨0, 0, by norm_num, by norm_num⟩

theorem fract_rounded (x : ℚ) : 0 ≤ fl64 (x - ⌊x⌋) ∧ fl64 (x - ⌊x⌋) ≤ 1 :=
  ⟨le_fl64 zero_isDouble (by linarith [Int.floor_le x]), fl64_le one_isDouble (by linarith [Int.lt_floor_add_one x])⟩

theorem wrap_cases (x : ℚ) : (wrapF fl64 x = 0 ∧ |fl64 (fl64 (x - ⌊x⌋) - 1)| ≤ sqrtEpsF) ∨
    (wrapF fl64 x = fl64 (x - ⌊x⌋) ∧ sqrtEpsF < |fl64 (fl64 (x - ⌊x⌋) - 1)|) := by
  unfold wrapF epsEqF
  dsimp only
  by_cases h : |fl64 (fl64 (x - ⌊x⌋) - 1)| ≤ sqrtEpsF
  · rw [if_pos h]
    exact Or.inl ⟨rfl, h⟩
  · rw [if_neg h]
    exact Or.inr ⟨rfl, not_le.1 h⟩

/-- The wrapped coordinate is a double and lies in the cell: it is never 1, as the plain difference can be (`fract_one`). -/
theorem wrap_range (x : ℚ) : IsDouble (wrapF fl64 x) ∧ 0 ≤ wrapF fl64 x ∧ wrapF fl64 x < 1 - sqrtEpsF := by
  rcases wrap_cases x with ⟨h, -⟩ | ⟨h, h'⟩
  · rw [h]
    exact ⟨zero_isDouble, le_refl _, by norm_num [sqrtEpsF]⟩
  · obtain ⟨h0, h1⟩ := fract_rounded x
    rw [h]
    refine ⟨fl64_isDouble _, h0, ?_⟩
    by_contra hc
    push Not at hc
    refine absurd h' (not_lt.2 ?_)
    have e : fl64 (fl64 (x - ⌊x⌋) - 1) = -fl64 (1 - fl64 (x - ⌊x⌋)) := by
      rw [← fl64_neg, neg_sub]
    rw [e, abs_neg, abs_of_nonneg (le_fl64 zero_isDouble (by linarith))]
    exact fl64_le eps_isDouble (by linarith)

/-- Wrapping twice is wrapping once, exactly. -/
theorem wrap_idem (x : ℚ) : wrapF fl64 (wrapF fl64 x) = wrapF fl64 x := by
  obtain ⟨hd, h0, h1⟩ := wrap_range x
  have hf : ⌊wrapF fl64 x⌋ = 0 := by
    rw [Int.floor_eq_iff]
    constructor
    · simpa using h0
    · have : (0 : ℚ) < sqrtEpsF := by norm_num [sqrtEpsF]
      push_cast
      linarith
  rcases wrap_cases (wrapF fl64 x) with ⟨h, h'⟩ | ⟨h, -⟩
  · rw [hf, Int.cast_zero, sub_zero, isDouble_exact hd] at h'
    exfalso
    rcases wrap_cases x with ⟨e, -⟩ | ⟨e, e'⟩
    · rw [e] at h'
      have : |fl64 (0 - 1)| = 1 := by
        rw [zero_sub, fl64_neg, isDouble_exact one_isDouble]
        norm_num
      rw [this] at h'
      norm_num [sqrtEpsF] at h'
    · rw [e] at h'
      exact absurd h' (not_le.2 e')
  · rw [h, hf, Int.cast_zero, sub_zero, isDouble_exact hd]

/-- Whole cells do not matter, when the sum is not rounded. -/
theorem wrap_shift (x : ℚ) (n : ℤ) : wrapF fl64 (x + n) = wrapF fl64 x := by
  unfold wrapF
  rw [Int.floor_add_intCast, Int.cast_add, add_sub_add_right_eq_sub]

/-- The wrapped coordinate is the fractional part up to one rounding, or zero when that is within the tolerance of 1. -/
theorem wrap_near (x : ℚ) : |wrapF fl64 x - Int.fract x| ≤ 1 / 2 ^ 53 ∨
    (wrapF fl64 x = 0 ∧ 1 - Int.fract x ≤ sqrtEpsF * (1 + 1 / 2 ^ 25)) := by
  have hr := abs_le.1 (fl64_rounds (x - ⌊x⌋))
  have hx0 : 0 ≤ x - ⌊x⌋ := by linarith [Int.floor_le x]
  have hx1 : x - ⌊x⌋ < 1 := by linarith [Int.lt_floor_add_one x]
  rw [abs_of_nonneg hx0] at hr
  have hfr : Int.fract x = x - ⌊x⌋ := rfl
  rw [hfr]
  rcases wrap_cases x with ⟨h, h'⟩ | ⟨h, -⟩
  · right
    refine ⟨h, ?_⟩
    have h2 := fl64_rounds (fl64 (x - ⌊x⌋) - 1)
    have h3 := (fract_rounded x).2
    rw [abs_of_nonpos (show fl64 (x - ⌊x⌋) - 1 ≤ 0 by linarith)] at h2
    have h4 := (abs_le.1 h').1
    have h5 := (abs_le.1 h2).2
    norm_num [sqrtEpsF] at *
    linarith [hr.1, hr.2]
  · left
    rw [h, abs_le]
    constructor <;> linarith [hr.1, hr.2]

/-- Coordinates that are not negative are wrapped without rounding. -/
theorem wrap_exact (x : ℚ) (hd : IsDouble x) (h0 : 0 ≤ x) : wrapF fl64 x = Int.fract x ∨ (wrapF fl64 x = 0 ∧ 1 - Int.fract x ≤ sqrtEpsF * (1 + 1 / 2 ^ 25)) := by
  rcases wrap_near x with h | h
  · have key : IsDouble (x - ⌊x⌋) := by
      obtain ⟨m, e, hm, rfl⟩ := hd
      have hp : (0 : ℚ) < 2 ^ e := zpow_pos (by norm_num) _
      have hm0 : 0 ≤ m := by
        by_contra hc
        push Not at hc
        have : (m : ℚ) * 2 ^ e < 0 := mul_neg_of_neg_of_pos (by exact_mod_cast hc) hp
        linarith
      rcases le_or_gt 0 e with he | he
      · obtain ⟨n, rfl⟩ := Int.eq_ofNat_of_zero_le he
        have e1 : (m : ℚ) * 2 ^ (n : ℤ) = ((m * 2 ^ n : ℤ) : ℚ) := by push_cast; rw [zpow_natCast]
        rw [e1, Int.floor_intCast, sub_self]
        exact zero_isDouble
      · obtain ⟨n, hn⟩ : ∃ n : ℕ, e = -(n : ℤ) := ⟨e.natAbs, by omega⟩
        subst hn
        have h2 : (0 : ℤ) < 2 ^ n := by positivity
        have e1 : (m : ℚ) * 2 ^ (-(n : ℤ)) = (m : ℚ) / ((2 ^ n : ℕ) : ℚ) := by
          rw [zpow_neg, zpow_natCast, div_eq_mul_inv]
          push_cast
          rfl
        have e2 : ⌊(m : ℚ) * 2 ^ (-(n : ℤ))⌋ = m / 2 ^ n := by
          rw [e1, Rat.floor_intCast_div_natCast]
          push_cast
          rfl
        refine ⟨m % 2 ^ n, -(n : ℤ), ?_, ?_⟩
        · rw [abs_of_nonneg (Int.emod_nonneg _ h2.ne')]
          have a1 : m % 2 ^ n ≤ m := by
            rw [Int.emod_def]
            have := mul_nonneg h2.le (Int.ediv_nonneg hm0 h2.le)
            omega
          have a2 := (abs_lt.1 hm).2
          omega
        · rw [e2, e1]
          have e3 : m % 2 ^ n = m - 2 ^ n * (m / 2 ^ n) := Int.emod_def _ _
          rw [e3, zpow_neg, zpow_natCast]
          push_cast
          field_simp
    rcases wrap_cases x with ⟨h1, h2⟩ | ⟨h1, -⟩
    · right
      refine ⟨h1, ?_⟩
      rw [isDouble_exact key] at h2
      have h3 := fl64_rounds (x - ⌊x⌋ - 1)
      have hx1 : x - ⌊x⌋ < 1 := by linarith [Int.lt_floor_add_one x]
      rw [abs_of_nonpos (show x - ⌊x⌋ - 1 ≤ 0 by linarith)] at h3
      have h4 := (abs_le.1 h2).1
      have h5 := (abs_le.1 h3).2
      have hfr : Int.fract x = x - ⌊x⌋ := rfl
      rw [hfr]
      norm_num [sqrtEpsF] at *
      linarith
    · left
      rw [h1, isDouble_exact key]
      rfl
  · exact Or.inr h

/-- The plain difference can be 1, outside of the cell; the wrapped coordinate is 0. -/
theorem fract_one : IsDouble (-1 / 2 ^ 60) ∧ fl64 (-1 / 2 ^ 60 - ⌊(-1 / 2 ^ 60 : ℚ)⌋) = 1 ∧ wrapF fl64 (-1 / 2 ^ 60) = 0 := by
  have h1 : fl64 (-1 / 2 ^ 60 - ⌊(-1 / 2 ^ 60 : ℚ)⌋) = 1 := by decide +kernel
  refine ⟨⟨-1, -60, by norm_num, by norm_num⟩, h1, ?_⟩
  rcases wrap_cases (-1 / 2 ^ 60) with ⟨h, -⟩ | ⟨-, h⟩
  · exact h
  · rw [h1, sub_self, fl64_zero] at h
    norm_num [sqrtEpsF] at h

/-- A negative coordinate is wrapped with a rounding error. -/
example : wrapF fl64 (-1 / 2 ^ 25 - 1 / 2 ^ 77) = 1 - 1 / 2 ^ 25 := by
  have h1 : fl64 ((-1 / 2 ^ 25 - 1 / 2 ^ 77 : ℚ) - ⌊(-1 / 2 ^ 25 - 1 / 2 ^ 77 : ℚ)⌋) = 1 - 1 / 2 ^ 25 := by decide +kernel
  rcases wrap_cases (-1 / 2 ^ 25 - 1 / 2 ^ 77) with ⟨-, h⟩ | ⟨h, -⟩
  · rw [h1] at h
    have : ¬ |fl64 (1 - 1 / 2 ^ 25 - 1)| ≤ sqrtEpsF := by unfold sqrtEpsF; decide +kernel
    exact absurd h this
  · rw [h, h1]

end Verif.Double
