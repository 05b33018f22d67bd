import Verif.Model.DoubleNorm
import Verif.Props.DoubleLattice
import Mathlib.Analysis.Real.Sqrt
/-! C108: lengths and distances in double precision. -/
namespace Verif.Double

/-! ### The square root -/

/-- The square root of the C library is correctly rounded, as IEEE 754 demands: it is the rounding of the real square root, that is it is not less than the
rounding of anything whose square is not greater, and conversely. -/
def SqrtOk (sq : ℚ → ℚ) : Prop := ∀ y q, 0 ≤ y → 0 ≤ q → (q * q ≤ y → fl64 q ≤ sq y) ∧ (y ≤ q * q → sq y ≤ fl64 q)

theorem ulp_cell (q : ℚ) (e : ℤ) (h1 : 2 ^ 52 ≤ q) (h2 : q < 2 ^ 53) : ulp (q * 2 ^ e) = 2 ^ e := by
  have hp : (0 : ℚ) < 2 ^ e := zpow_pos (by norm_num) _
  have hq : 0 < q := lt_of_lt_of_le (by norm_num) h1
  have hx : 0 < q * 2 ^ e := mul_pos hq hp
  unfold ulp
  rw [abs_of_pos hx]
  congr 1
  have a1 : (2 : ℚ) ^ Int.log 2 (q * 2 ^ e) ≤ q * 2 ^ e := by exact_mod_cast Int.zpow_log_le_self (b := 2) (by norm_num) hx
  have a2 : q * 2 ^ e < (2 : ℚ) ^ (Int.log 2 (q * 2 ^ e) + 1) := by exact_mod_cast Int.lt_zpow_succ_log_self (b := 2) (by norm_num) (q * 2 ^ e)
  have b1 : (2 : ℚ) ^ (52 + e) ≤ q * 2 ^ e := by
    rw [zpow_add₀ (by norm_num)]
    exact mul_le_mul_of_nonneg_right (by exact_mod_cast h1) hp.le
  have b2 : q * 2 ^ e < (2 : ℚ) ^ (53 + e) := by
    rw [zpow_add₀ (by norm_num)]
    exact mul_lt_mul_of_pos_right (by exact_mod_cast h2) hp
  have c1 := (zpow_lt_zpow_iff_right₀ (by norm_num : (1 : ℚ) < 2)).1 (lt_of_le_of_lt a1 b2)
  have c2 := (zpow_lt_zpow_iff_right₀ (by norm_num : (1 : ℚ) < 2)).1 (lt_of_le_of_lt b1 a2)
  omega

theorem fl64_cell (q : ℚ) (e : ℤ) (h1 : 2 ^ 52 ≤ q) (h2 : q < 2 ^ 53) : fl64 (q * 2 ^ e) = rne q * 2 ^ e := by
  unfold fl64
  rw [ulp_cell q e h1 h2, mul_div_cancel_right₀ _ (zpow_ne_zero _ (by norm_num))]

theorem rne_close (q : ℚ) (m : ℤ) (h : |q - m| < 1 / 2) : rne q = m := by
  have h1 := rne_near q
  have : |((rne q : ℤ) : ℚ) - m| < 1 := by
    have := abs_add_le ((rne q : ℚ) - q) (q - m)
    rw [sub_add_sub_cancel] at this
    linarith
  have : |rne q - m| < 1 := by exact_mod_cast this
  rw [abs_lt] at this
  omega

variable {sq : ℚ → ℚ}

theorem sqrt_square (hs : SqrtOk sq) {q : ℚ} (hq : 0 ≤ q) : sq (q * q) = fl64 q :=
  le_antisymm ((hs _ q (mul_self_nonneg q) hq).2 (le_refl _)) ((hs _ q (mul_self_nonneg q) hq).1 (le_refl _))

theorem sqrt_one (hs : SqrtOk sq) : sq 1 = 1 := by
  have := sqrt_square hs (q := 1) (by norm_num)
  rwa [mul_one, fl64_one] at this

theorem sqrt_zero (hs : SqrtOk sq) : sq 0 = 0 := by
  have := sqrt_square hs (q := 0) (by norm_num)
  rwa [mul_zero, fl64_zero] at this

/-- A positive double as a 53-bit integer times a power of two. -/
theorem normalized {x : ℚ} (hx : IsDouble x) (h0 : 0 < x) : ∃ m e : ℤ, 2 ^ 52 ≤ m ∧ m < 2 ^ 53 ∧ x = m * 2 ^ e := by
  obtain ⟨h1, h2⟩ := rne_scaled h0
  have e : x = rne (x / ulp x) * ulp x := (isDouble_exact hx).symm
  refine ⟨rne (x / ulp x), Int.log 2 |x| - 52, h1, ?_, e⟩
  rcases h2.lt_or_eq with h | h
  · exact h
  · exfalso
    have := (scaled h0).2
    rw [div_lt_iff₀ (ulp_pos x)] at this
    rw [h] at e
    push_cast at e
    linarith

/-- **C108.** The square root of the rounded square of a double is its absolute value, exactly. -/
theorem sqrt_sq (hs : SqrtOk sq) {x : ℚ} (hx : IsDouble x) : sq (fl64 (x * x)) = |x| := by
  have pos : ∀ x : ℚ, IsDouble x → 0 < x → sq (fl64 (x * x)) = x := by
    intro x hx h0
    obtain ⟨m, e, m1, m2, rfl⟩ := normalized hx h0
    have hp : (0 : ℚ) < 2 ^ e := zpow_pos (by norm_num) _
    have hm1 : (2 : ℚ) ^ 52 ≤ m := by exact_mod_cast m1
    have hm2 : (m : ℚ) < 2 ^ 53 := by exact_mod_cast m2
    have hy0 : 0 ≤ fl64 ((m : ℚ) * 2 ^ e * (m * 2 ^ e)) := le_fl64 zero_isDouble (mul_self_nonneg _)
    rcases m1.eq_or_lt with h | h
    · subst h
      have ex : fl64 (((2 ^ 52 : ℤ) : ℚ) * 2 ^ e * (((2 ^ 52 : ℤ) : ℚ) * 2 ^ e)) = ((2 ^ 52 : ℤ) : ℚ) * 2 ^ e * (((2 ^ 52 : ℤ) : ℚ) * 2 ^ e) := by
        refine isDouble_exact ⟨1, 104 + (e + e), by norm_num, ?_⟩
        rw [zpow_add₀ (by norm_num), zpow_add₀ (by norm_num)]
        push_cast
        norm_num
        ring
      rw [ex, sqrt_square hs (by positivity)]
      exact isDouble_exact hx
    · have hm3 : (2 : ℚ) ^ 52 + 1 ≤ m := by exact_mod_cast h
      have hmm : (m : ℚ) * m < 2 ^ 53 * 2 ^ 53 := by nlinarith
      have hd : |fl64 ((m : ℚ) * 2 ^ e * (m * 2 ^ e)) - m * 2 ^ e * (m * 2 ^ e)| ≤ (7 / 8 * m - 49 / 256) * (2 ^ e * 2 ^ e) := by
        have hpp : (0 : ℚ) < 2 ^ e * 2 ^ e := mul_pos hp hp
        rcases lt_or_ge ((m : ℚ) * m) (2 ^ 105) with hb | hb
        · have e1 : (m : ℚ) * 2 ^ e * (m * 2 ^ e) = (m * m / 2 ^ 52) * 2 ^ (52 + (e + e)) := by
            rw [zpow_add₀ (by norm_num), zpow_add₀ (by norm_num)]
            norm_num
            ring
          rw [e1, fl64_cell _ _ (by rw [le_div_iff₀ (by norm_num)]; norm_num at hm1 ⊢; nlinarith) (by rw [div_lt_iff₀ (by norm_num)]; norm_num at hb ⊢; exact hb)]
          have h1 := rne_near ((m : ℚ) * m / 2 ^ 52)
          rw [← sub_mul, abs_mul, abs_of_pos (zpow_pos (by norm_num : (0 : ℚ) < 2) _), zpow_add₀ (by norm_num), zpow_add₀ (by norm_num), ← mul_assoc]
          refine mul_le_mul_of_nonneg_right ?_ hpp.le
          have : |((rne ((m : ℚ) * m / 2 ^ 52) : ℤ) : ℚ) - m * m / 2 ^ 52| * (2 : ℚ) ^ (52 : ℤ) ≤ 1 / 2 * (2 : ℚ) ^ (52 : ℤ) :=
            mul_le_mul_of_nonneg_right h1 (by positivity)
          refine this.trans ?_
          norm_num at hm1 ⊢
          linarith
        · have e1 : (m : ℚ) * 2 ^ e * (m * 2 ^ e) = (m * m / 2 ^ 53) * 2 ^ (53 + (e + e)) := by
            rw [zpow_add₀ (by norm_num), zpow_add₀ (by norm_num)]
            norm_num
            ring
          rw [e1, fl64_cell _ _ (by rw [le_div_iff₀ (by norm_num)]; norm_num at hb ⊢; exact hb) (by rw [div_lt_iff₀ (by norm_num)]; exact hmm)]
          have h1 := rne_near ((m : ℚ) * m / 2 ^ 53)
          rw [← sub_mul, abs_mul, abs_of_pos (zpow_pos (by norm_num : (0 : ℚ) < 2) _), zpow_add₀ (by norm_num), zpow_add₀ (by norm_num), ← mul_assoc]
          refine mul_le_mul_of_nonneg_right ?_ hpp.le
          have : |((rne ((m : ℚ) * m / 2 ^ 53) : ℤ) : ℚ) - m * m / 2 ^ 53| * (2 : ℚ) ^ (53 : ℤ) ≤ 1 / 2 * (2 : ℚ) ^ (53 : ℤ) :=
            mul_le_mul_of_nonneg_right h1 (by positivity)
          refine this.trans ?_
          have hbig : (2 : ℚ) ^ 52 * (13 / 10) ≤ m := by
            by_contra hc
            rw [not_le] at hc
            norm_num at hb hc hm1
            nlinarith
          norm_num at hbig ⊢
          linarith
      rw [abs_le] at hd
      generalize fl64 ((m : ℚ) * 2 ^ e * (m * 2 ^ e)) = y at hy0 hd
      have lo := (hs y ((m - 7 / 16) * 2 ^ e) hy0 (mul_nonneg (by norm_num at hm1 ⊢; linarith) hp.le)).1 (by
        have : ((m : ℚ) - 7 / 16) * 2 ^ e * ((m - 7 / 16) * 2 ^ e) = m * 2 ^ e * (m * 2 ^ e) - (7 / 8 * m - 49 / 256) * (2 ^ e * 2 ^ e) := by ring
        rw [this]
        linarith [hd.1])
      have hi := (hs y ((m + 7 / 16) * 2 ^ e) hy0 (mul_nonneg (by norm_num at hm1 ⊢; linarith) hp.le)).2 (by
        have : ((m : ℚ) + 7 / 16) * 2 ^ e * ((m + 7 / 16) * 2 ^ e) = m * 2 ^ e * (m * 2 ^ e) + (7 / 8 * m + 49 / 256) * (2 ^ e * 2 ^ e) := by ring
        rw [this]
        have : (7 / 8 * (m : ℚ) - 49 / 256) * (2 ^ e * 2 ^ e) ≤ (7 / 8 * m + 49 / 256) * (2 ^ e * 2 ^ e) := mul_le_mul_of_nonneg_right (by linarith) (mul_pos hp hp).le
        linarith [hd.2])
      have hm4 : (m : ℚ) ≤ 2 ^ 53 - 1 := by
        have : m ≤ 2 ^ 53 - 1 := by omega
        exact_mod_cast this
      rw [fl64_cell _ _ (by linarith) (by linarith), rne_close _ m (by rw [show (m : ℚ) - 7 / 16 - m = -(7 / 16) by ring]; norm_num [abs_of_neg])] at lo
      rw [fl64_cell _ _ (by linarith) (by linarith), rne_close _ m (by rw [show (m : ℚ) + 7 / 16 - m = 7 / 16 by ring]; norm_num [abs_of_pos])] at hi
      exact le_antisymm hi lo
  rcases lt_trichotomy x 0 with h | rfl | h
  · rw [abs_of_neg h, ← pos (-x) (isDouble_neg hx) (by linarith), neg_mul_neg]
  · rw [mul_zero, fl64_zero, sqrt_zero hs, abs_zero]
  · rw [abs_of_pos h, pos x hx h]

/-- The square root has a relative error of at most 2⁻⁵³. -/
theorem sqrt_near (hs : SqrtOk sq) {y : ℚ} (hy : 0 ≤ y) : (1 - 1 / 2 ^ 53) * Real.sqrt y ≤ sq y ∧ (sq y : ℝ) ≤ (1 + 1 / 2 ^ 53) * Real.sqrt y := by
  have hyr : (0 : ℝ) ≤ (y : ℝ) := by exact_mod_cast hy
  constructor
  · by_contra hc
    rw [not_le] at hc
    rcases hy.eq_or_lt with rfl | h0
    · rw [sqrt_zero hs] at hc
      simp at hc
    have hsp : 0 < Real.sqrt y := Real.sqrt_pos.2 (by exact_mod_cast h0)
    have hk : (0 : ℝ) < 1 - 1 / 2 ^ 53 := by norm_num
    have : max 0 ((sq y : ℝ) / (1 - 1 / 2 ^ 53)) < Real.sqrt y := max_lt hsp (by rw [div_lt_iff₀ hk]; linarith)
    obtain ⟨q, q1, q2⟩ := exists_rat_btwn this
    have q0 : (0 : ℝ) < q := lt_of_le_of_lt (le_max_left _ _) q1
    have q0' : 0 ≤ q := by exact_mod_cast q0.le
    have := (hs y q hy q0').1 (by
      have : ((q * q : ℚ) : ℝ) ≤ (y : ℝ) := by
        push_cast
        rw [← Real.mul_self_sqrt hyr]
        exact mul_le_mul q2.le q2.le q0.le hsp.le
      exact_mod_cast this)
    have hf := fl64_real q
    rw [abs_of_pos q0, abs_le] at hf
    have h5 : (sq y : ℝ) < q * (1 - 1 / 2 ^ 53) := by
      have := lt_of_le_of_lt (le_max_right _ _) q1
      rwa [div_lt_iff₀ hk] at this
    have h6 : (fl64 q : ℝ) ≤ sq y := by exact_mod_cast this
    linarith [hf.1]
  · by_contra hc
    rw [not_le] at hc
    have hk : (0 : ℝ) < 1 + 1 / 2 ^ 53 := by norm_num
    have hs0 := Real.sqrt_nonneg (y : ℝ)
    have : Real.sqrt y < (sq y : ℝ) / (1 + 1 / 2 ^ 53) := by rw [lt_div_iff₀ hk]; linarith
    obtain ⟨q, q1, q2⟩ := exists_rat_btwn this
    have q0 : (0 : ℝ) < q := lt_of_le_of_lt hs0 q1
    have q0' : 0 ≤ q := by exact_mod_cast q0.le
    have := (hs y q hy q0').2 (by
      have : (y : ℝ) ≤ ((q * q : ℚ) : ℝ) := by
        push_cast
        rw [← Real.mul_self_sqrt hyr]
        exact mul_le_mul q1.le q1.le hs0 q0.le
      exact_mod_cast this)
    have hf := fl64_real q
    rw [abs_of_pos q0, abs_le] at hf
    have h5 : (q : ℝ) * (1 + 1 / 2 ^ 53) < sq y := by rwa [lt_div_iff₀ hk] at q2
    have h6 : (sq y : ℝ) ≤ fl64 q := by exact_mod_cast this
    linarith [hf.2]

theorem rne_up (x : ℚ) (j : ℤ) (h1 : (j : ℚ) - 1 / 2 < x) (h2 : x < j + 1 / 2) : rne x = j :=
  rne_close x j (by rw [abs_lt]; constructor <;> linarith)

/-- A correctly rounded square root exists. -/
theorem sqrt_exists : ∃ sq, SqrtOk sq := by
  have key : ∀ y : ℚ, 0 ≤ y → ∃ s : ℚ, ∀ q, 0 ≤ q → (q * q ≤ y → fl64 q ≤ fl64 s) ∧ (y ≤ q * q → fl64 s ≤ fl64 q) := by
    intro y hy
    by_cases hr : ∃ s : ℚ, 0 ≤ s ∧ s * s = y
    · obtain ⟨s, s0, rfl⟩ := hr
      refine ⟨s, fun q hq => ⟨fun h => fl64_mono ?_, fun h => fl64_mono ?_⟩⟩
      · exact le_of_not_gt fun hc => absurd h (not_le.2 (mul_self_lt_mul_self s0 hc))
      · exact le_of_not_gt fun hc => absurd h (not_le.2 (mul_self_lt_mul_self hq hc))
    · have hy0 : 0 < y := lt_of_le_of_ne hy fun h => hr ⟨0, le_refl _, by rw [← h, mul_zero]⟩
      have hyr : (0 : ℝ) < (y : ℝ) := by exact_mod_cast hy0
      have hs : 0 < Real.sqrt y := Real.sqrt_pos.2 hyr
      have a1 : (2 : ℝ) ^ Int.log 2 (Real.sqrt y) ≤ Real.sqrt y := by exact_mod_cast Int.zpow_log_le_self (b := 2) (by norm_num) hs
      have a2 : Real.sqrt y < (2 : ℝ) ^ (Int.log 2 (Real.sqrt y) + 1) := by exact_mod_cast Int.lt_zpow_succ_log_self (b := 2) (by norm_num) (Real.sqrt y)
      obtain ⟨e, he⟩ : ∃ e : ℤ, Int.log 2 (Real.sqrt y) = 52 + e := ⟨_, (add_sub_cancel 52 _).symm⟩
      rw [he] at a1 a2
      have hp : (0 : ℝ) < 2 ^ e := zpow_pos (by norm_num) _
      have hpq : (0 : ℚ) < 2 ^ e := zpow_pos (by norm_num) _
      rw [show (52 : ℤ) + e + 1 = 53 + e by ring, zpow_add₀ (by norm_num)] at a2
      rw [zpow_add₀ (by norm_num)] at a1
      have a1 : (2 : ℝ) ^ 52 * 2 ^ e ≤ Real.sqrt y := by exact_mod_cast a1
      have a2 : Real.sqrt y < (2 : ℝ) ^ 53 * 2 ^ e := by exact_mod_cast a2
      -- the half-integer cell of the square root
      let k : ℤ := ⌊2 * (Real.sqrt y / 2 ^ e)⌋
      have k1 : (k : ℝ) ≤ 2 * (Real.sqrt y / 2 ^ e) := Int.floor_le _
      have k2 : 2 * (Real.sqrt y / 2 ^ e) < k + 1 := Int.lt_floor_add_one _
      have k3 : (2 : ℤ) ^ 53 ≤ k := by
        apply Int.le_floor.2
        push_cast
        have : (2 : ℝ) ^ 52 ≤ Real.sqrt y / 2 ^ e := by rwa [le_div_iff₀ hp]
        norm_num at this ⊢
        linarith
      have k4 : k + 1 ≤ 2 ^ 54 := by
        have : k < 2 ^ 54 := by
          apply Int.floor_lt.2
          push_cast
          have : Real.sqrt y / 2 ^ e < (2 : ℝ) ^ 53 := by rwa [div_lt_iff₀ hp]
          norm_num at this ⊢
          linarith
        omega
      have b1 : ((k / 2 * 2 ^ e : ℚ) : ℝ) < Real.sqrt y := by
        have h : ((k / 2 * 2 ^ e : ℚ) : ℝ) ≤ Real.sqrt y := by
          push_cast
          have : (k : ℝ) / 2 ≤ Real.sqrt y / 2 ^ e := by linarith
          rwa [le_div_iff₀ hp] at this
        refine lt_of_le_of_ne h fun hc => hr ⟨k / 2 * 2 ^ e, ?_, ?_⟩
        · have : (0 : ℚ) ≤ k := by
            have : 0 ≤ k := le_trans (by norm_num) k3
            exact_mod_cast this
          positivity
        · have := Real.mul_self_sqrt hyr.le
          rw [← hc] at this
          exact_mod_cast this
      have b2 : Real.sqrt y < ((((k : ℚ) + 1) / 2 * 2 ^ e : ℚ) : ℝ) := by
        push_cast
        have : Real.sqrt y / 2 ^ e < ((k : ℝ) + 1) / 2 := by linarith
        rwa [div_lt_iff₀ hp] at this
      have k3q : (2 : ℚ) ^ 53 ≤ k := by exact_mod_cast k3
      have k4q : (k : ℚ) + 1 ≤ 2 ^ 54 := by exact_mod_cast k4
      have same : ∀ x x' : ℚ, (k : ℚ) / 2 < x → x < (k + 1) / 2 → (k : ℚ) / 2 < x' → x' < (k + 1) / 2 → fl64 (x * 2 ^ e) = fl64 (x' * 2 ^ e) := by
        intro x x' x1 x2 x3 x4
        rw [fl64_cell x e (by linarith) (by linarith), fl64_cell x' e (by linarith) (by linarith)]
        congr 2
        rcases Int.even_or_odd' k with ⟨j, hj | hj⟩
        · have hj : (k : ℚ) = 2 * j := by exact_mod_cast hj
          rw [rne_up x j (by linarith) (by linarith), rne_up x' j (by linarith) (by linarith)]
        · have hj : (k : ℚ) = 2 * j + 1 := by exact_mod_cast hj
          rw [rne_up x (j + 1) (by push_cast; linarith) (by push_cast; linarith), rne_up x' (j + 1) (by push_cast; linarith) (by push_cast; linarith)]
      refine ⟨((k : ℚ) / 2 + 1 / 4) * 2 ^ e, fun q hq => ⟨fun h => ?_, fun h => ?_⟩⟩
      · rcases le_or_gt q (((k : ℚ) / 2 + 1 / 4) * 2 ^ e) with hc | hc
        · exact fl64_mono hc
        · have hlt : q < ((k : ℚ) + 1) / 2 * 2 ^ e := by
            have : (q : ℝ) ≤ Real.sqrt y := Real.le_sqrt_of_sq_le (by rw [pow_two]; exact_mod_cast h)
            have := lt_of_le_of_lt this b2
            exact_mod_cast this
          have ex : q = q / 2 ^ e * 2 ^ e := (div_mul_cancel₀ _ hpq.ne').symm
          rw [ex]
          exact (same _ _ (by rw [lt_div_iff₀ hpq]; refine lt_trans ?_ hc; exact mul_lt_mul_of_pos_right (by linarith) hpq) (by rwa [div_lt_iff₀ hpq]) (by linarith) (by linarith)).le
      · rcases le_or_gt (((k : ℚ) / 2 + 1 / 4) * 2 ^ e) q with hc | hc
        · exact fl64_mono hc
        · have hlt : (k : ℚ) / 2 * 2 ^ e < q := by
            have : Real.sqrt y ≤ (q : ℝ) := Real.sqrt_le_iff.2 ⟨by exact_mod_cast hq, by rw [pow_two]; exact_mod_cast h⟩
            have := lt_of_lt_of_le b1 this
            exact_mod_cast this
          have ex : q = q / 2 ^ e * 2 ^ e := (div_mul_cancel₀ _ hpq.ne').symm
          rw [ex]
          exact (same _ _ (by linarith) (by linarith) (by rwa [lt_div_iff₀ hpq]) (by rw [div_lt_iff₀ hpq]; refine lt_trans hc ?_; exact mul_lt_mul_of_pos_right (by linarith) hpq)).le
  classical
  refine ⟨fun y => if h : 0 ≤ y then fl64 (key y h).choose else 0, fun y q hy hq => ?_⟩
  dsimp only
  rw [dif_pos hy]
  exact (key y hy).choose_spec q hq

/-! ### Distances -/

theorem rel {x : ℚ} (hx : 0 ≤ x) : (1 - 1 / 2 ^ 53) * x ≤ fl64 x ∧ fl64 x ≤ (1 + 1 / 2 ^ 53) * x := by
  have := fl64_rounds x
  rw [abs_of_nonneg hx, abs_le] at this
  constructor <;> linarith [this.1, this.2]

theorem dot_nonneg (u : V3) : 0 ≤ dotF fl64 u u := by
  unfold dotF
  have p : ∀ i, 0 ≤ fl64 (u i * u i) := fun i => le_fl64 zero_isDouble (mul_self_nonneg _)
  exact le_fl64 zero_isDouble (add_nonneg (le_fl64 zero_isDouble (add_nonneg (p 0) (p 1))) (p 2))

/-- **C108.** Distances in either direction are the same bit for bit, whatever the square root. -/
theorem distance_comm (sq : ℚ → ℚ) (u v : V3) : distanceF fl64 sq u v = distanceF fl64 sq v u := by
  unfold distanceF normF dotF
  have e : ∀ i, fl64 (u i - v i) = -fl64 (v i - u i) := fun i => by rw [← neg_sub, fl64_neg]
  simp only [e, neg_mul_neg]

/-- The distance of points that differ along one axis only is the rounded difference of these coordinates, without a further error. -/
theorem distance_axis (hs : SqrtOk sq) (u v : V3) (k : Fin 3) (h : ∀ i, i ≠ k → u i = v i) : distanceF fl64 sq u v = |fl64 (u k - v k)| := by
  have z : ∀ i, i ≠ k → u i - v i = 0 := fun i hi => sub_eq_zero.2 (h i hi)
  have i : ∀ y, fl64 (fl64 y) = fl64 y := fun y => isDouble_exact (fl64_isDouble y)
  rw [← sqrt_sq hs (fl64_isDouble (u k - v k))]
  unfold distanceF normF dotF
  fin_cases k
  · have z1 := z 1 (by decide)
    have z2 := z 2 (by decide)
    simp [z1, z2, fl64_zero, i]
  · have z1 := z 0 (by decide)
    have z2 := z 2 (by decide)
    simp [z1, z2, fl64_zero, i]
  · have z1 := z 0 (by decide)
    have z2 := z 1 (by decide)
    simp [z1, z2, fl64_zero, i]

theorem square_sub (x y : ℚ) : (1 - 1 / 2 ^ 53) ^ 3 * ((x - y) * (x - y)) ≤ fl64 (fl64 (x - y) * fl64 (x - y)) ∧
    fl64 (fl64 (x - y) * fl64 (x - y)) ≤ (1 + 1 / 2 ^ 53) ^ 3 * ((x - y) * (x - y)) := by
  have key : ∀ d : ℚ, 0 ≤ d → (1 - 1 / 2 ^ 53) ^ 3 * (d * d) ≤ fl64 (fl64 d * fl64 d) ∧ fl64 (fl64 d * fl64 d) ≤ (1 + 1 / 2 ^ 53) ^ 3 * (d * d) := by
    intro d hd
    obtain ⟨a1, a2⟩ := rel hd
    obtain ⟨b1, b2⟩ := rel (mul_self_nonneg (fl64 d))
    have c0 : 0 ≤ fl64 d := le_fl64 zero_isDouble hd
    have k0 : 0 ≤ (1 - 1 / 2 ^ 53) * d := mul_nonneg (by norm_num) hd
    have c1 := mul_le_mul a1 a1 k0 c0
    have c2 := mul_le_mul a2 a2 c0 (k0.trans (a1.trans a2))
    constructor
    · have := mul_le_mul_of_nonneg_left c1 (by norm_num : (0 : ℚ) ≤ 1 - 1 / 2 ^ 53)
      have e : (1 - 1 / 2 ^ 53 : ℚ) ^ 3 * (d * d) = (1 - 1 / 2 ^ 53) * ((1 - 1 / 2 ^ 53) * d * ((1 - 1 / 2 ^ 53) * d)) := by ring
      rw [e]
      exact this.trans b1
    · have := mul_le_mul_of_nonneg_left c2 (by norm_num : (0 : ℚ) ≤ 1 + 1 / 2 ^ 53)
      have e : (1 + 1 / 2 ^ 53 : ℚ) ^ 3 * (d * d) = (1 + 1 / 2 ^ 53) * ((1 + 1 / 2 ^ 53) * d * ((1 + 1 / 2 ^ 53) * d)) := by ring
      rw [e]
      exact b2.trans this
  rcases le_total 0 (x - y) with h | h
  · exact key _ h
  · have := key (-(x - y)) (by linarith)
    rw [fl64_neg, neg_mul_neg, neg_mul_neg] at this
    exact this

theorem dot_near (u v : V3) : let D := (u 0 - v 0) * (u 0 - v 0) + (u 1 - v 1) * (u 1 - v 1) + (u 2 - v 2) * (u 2 - v 2)
    let S := dotF fl64 (fun i => fl64 (u i - v i)) (fun i => fl64 (u i - v i))
    (1 - 1 / 2 ^ 53) ^ 5 * D ≤ S ∧ S ≤ (1 + 1 / 2 ^ 53) ^ 5 * D := by
  intro D S
  show _ ≤ dotF fl64 _ _ ∧ dotF fl64 _ _ ≤ _
  unfold dotF
  dsimp only
  have h0 := square_sub (u 0) (v 0)
  have h1 := square_sub (u 1) (v 1)
  have h2 := square_sub (u 2) (v 2)
  have p0 := mul_self_nonneg (u 0 - v 0)
  have p1 := mul_self_nonneg (u 1 - v 1)
  have p2 := mul_self_nonneg (u 2 - v 2)
  have e : D = (u 0 - v 0) * (u 0 - v 0) + (u 1 - v 1) * (u 1 - v 1) + (u 2 - v 2) * (u 2 - v 2) := rfl
  rw [e]
  have r0 : 0 ≤ fl64 (fl64 (u 0 - v 0) * fl64 (u 0 - v 0)) := le_fl64 zero_isDouble (mul_self_nonneg _)
  have r1 : 0 ≤ fl64 (fl64 (u 1 - v 1) * fl64 (u 1 - v 1)) := le_fl64 zero_isDouble (mul_self_nonneg _)
  have r2 : 0 ≤ fl64 (fl64 (u 2 - v 2) * fl64 (u 2 - v 2)) := le_fl64 zero_isDouble (mul_self_nonneg _)
  generalize fl64 (fl64 (u 0 - v 0) * fl64 (u 0 - v 0)) = s0 at *
  generalize fl64 (fl64 (u 1 - v 1) * fl64 (u 1 - v 1)) = s1 at *
  generalize fl64 (fl64 (u 2 - v 2) * fl64 (u 2 - v 2)) = s2 at *
  generalize (u 0 - v 0) * (u 0 - v 0) = d0 at *
  generalize (u 1 - v 1) * (u 1 - v 1) = d1 at *
  generalize (u 2 - v 2) * (u 2 - v 2) = d2 at *
  have a := rel (add_nonneg r0 r1)
  have t0 : 0 ≤ fl64 (s0 + s1) := le_fl64 zero_isDouble (add_nonneg r0 r1)
  generalize fl64 (s0 + s1) = t at *
  have b := rel (add_nonneg t0 r2)
  generalize fl64 (t + s2) = w at *
  norm_num at h0 h1 h2 a b ⊢
  constructor <;> nlinarith

/-- **C108.** A distance has a relative error of at most four roundings. -/
theorem distance_near (hs : SqrtOk sq) (u v : V3) :
    |(distanceF fl64 sq u v : ℝ) - Real.sqrt (((u 0 : ℝ) - v 0) ^ 2 + ((u 1 : ℝ) - v 1) ^ 2 + ((u 2 : ℝ) - v 2) ^ 2)| ≤
    Real.sqrt (((u 0 : ℝ) - v 0) ^ 2 + ((u 1 : ℝ) - v 1) ^ 2 + ((u 2 : ℝ) - v 2) ^ 2) / 2 ^ 51 := by
  obtain ⟨h1, h2⟩ := dot_near u v
  have h3 := sqrt_near hs (dot_nonneg (fun i => fl64 (u i - v i)))
  have hn := dot_nonneg (fun i => fl64 (u i - v i))
  unfold distanceF normF
  generalize dotF fl64 (fun i => fl64 (u i - v i)) (fun i => fl64 (u i - v i)) = S at *
  have e : ((u 0 : ℝ) - v 0) ^ 2 + ((u 1 : ℝ) - v 1) ^ 2 + ((u 2 : ℝ) - v 2) ^ 2 =
    (((u 0 - v 0) * (u 0 - v 0) + (u 1 - v 1) * (u 1 - v 1) + (u 2 - v 2) * (u 2 - v 2) : ℚ) : ℝ) := by push_cast; ring
  rw [e]
  have hD : 0 ≤ (u 0 - v 0) * (u 0 - v 0) + (u 1 - v 1) * (u 1 - v 1) + (u 2 - v 2) * (u 2 - v 2) :=
    add_nonneg (add_nonneg (mul_self_nonneg _) (mul_self_nonneg _)) (mul_self_nonneg _)
  generalize (u 0 - v 0) * (u 0 - v 0) + (u 1 - v 1) * (u 1 - v 1) + (u 2 - v 2) * (u 2 - v 2) = D at *
  have hDr : (0 : ℝ) ≤ (D : ℝ) := by exact_mod_cast hD
  have g1 : (1 - 1 / 2 ^ 53) ^ 5 * (D : ℝ) ≤ S := by
    have : (((1 - 1 / 2 ^ 53) ^ 5 * D : ℚ) : ℝ) ≤ (S : ℝ) := Rat.cast_le.2 h1
    push_cast at this
    exact this
  have g2 : (S : ℝ) ≤ (1 + 1 / 2 ^ 53) ^ 5 * (D : ℝ) := by
    have : (S : ℝ) ≤ (((1 + 1 / 2 ^ 53) ^ 5 * D : ℚ) : ℝ) := Rat.cast_le.2 h2
    push_cast at this
    exact this
  have q0 := Real.sqrt_nonneg (D : ℝ)
  have k1 : (1 - 3 / 2 ^ 53) * Real.sqrt D ≤ Real.sqrt S := by
    apply Real.le_sqrt_of_sq_le
    rw [mul_pow, Real.sq_sqrt hDr]
    refine le_trans (mul_le_mul_of_nonneg_right ?_ hDr) g1
    norm_num
  have k2 : Real.sqrt S ≤ (1 + 11 / 2 ^ 55) * Real.sqrt D := by
    apply Real.sqrt_le_iff.2
    refine ⟨mul_nonneg (by norm_num) q0, ?_⟩
    rw [mul_pow, Real.sq_sqrt hDr]
    refine g2.trans (mul_le_mul_of_nonneg_right ?_ hDr)
    norm_num
  rw [abs_le]
  norm_num at h3 k1 k2 ⊢
  constructor <;> nlinarith [h3.1, h3.2]

/-- The distance of different points is positive, that of a point to itself is zero. -/
theorem distance_zero_iff (hs : SqrtOk sq) (u v : V3) : distanceF fl64 sq u v = 0 ↔ u = v := by
  have hn := distance_near hs u v
  constructor
  · intro h
    rw [h] at hn
    have q0 := Real.sqrt_nonneg (((u 0 : ℝ) - v 0) ^ 2 + ((u 1 : ℝ) - v 1) ^ 2 + ((u 2 : ℝ) - v 2) ^ 2)
    have hz : Real.sqrt (((u 0 : ℝ) - v 0) ^ 2 + ((u 1 : ℝ) - v 1) ^ 2 + ((u 2 : ℝ) - v 2) ^ 2) = 0 := by
      rw [abs_le] at hn
      norm_num at hn
      linarith [hn.1]
    rw [Real.sqrt_eq_zero (by positivity)] at hz
    have z0 : (u 0 : ℝ) - v 0 = 0 := by nlinarith [sq_nonneg ((u 0 : ℝ) - v 0), sq_nonneg ((u 1 : ℝ) - v 1), sq_nonneg ((u 2 : ℝ) - v 2)]
    have z1 : (u 1 : ℝ) - v 1 = 0 := by nlinarith [sq_nonneg ((u 0 : ℝ) - v 0), sq_nonneg ((u 1 : ℝ) - v 1), sq_nonneg ((u 2 : ℝ) - v 2)]
    have z2 : (u 2 : ℝ) - v 2 = 0 := by nlinarith [sq_nonneg ((u 0 : ℝ) - v 0), sq_nonneg ((u 1 : ℝ) - v 1), sq_nonneg ((u 2 : ℝ) - v 2)]
    funext i
    fin_cases i
    · have : (u 0 : ℝ) = v 0 := by linarith
      exact_mod_cast this
    · have : (u 1 : ℝ) = v 1 := by linarith
      exact_mod_cast this
    · have : (u 2 : ℝ) = v 2 := by linarith
      exact_mod_cast this
  · rintro rfl
    rw [distance_axis hs u u 0 (fun _ _ => rfl), sub_self, fl64_zero, abs_zero]

/-! ### A lattice from orthogonal base vectors -/

/-- **C108.** A lattice given by base vectors along the axes has exactly their lengths for its edges, right angles and the sines and cosines of these. -/
theorem base_right_angles (hs : SqrtOk sq) (acosl : ℚ → ℚ) {a b c : ℚ} (ha : IsDouble a) (hb : IsDouble b) (hc : IsDouble c) (ha0 : 0 < a) (hb0 : 0 < b) (hc0 : 0 < c) :
    let R := setLatBaseF fl64 sq acosl ![a, 0, 0] ![0, b, 0] ![0, 0, c]
    R.2 = ![90, 90, 90] ∧ (R.1.a = a ∧ R.1.b = b ∧ R.1.c = c) ∧ (R.1.ca = 0 ∧ R.1.cb = 0 ∧ R.1.cg = 0) ∧ (R.1.sa = 1 ∧ R.1.sb = 1 ∧ R.1.sg = 1) ∧
    (R.1.ar = fl64 (1 / a) ∧ R.1.br = fl64 (1 / b) ∧ R.1.cr = fl64 (1 / c)) ∧
    R.1.metrics = ![![fl64 (a * a), 0, 0], ![0, fl64 (b * b), 0], ![0, 0, fl64 (c * c)]] ∧ R.1.base = ![![a, 0, 0], ![0, b, 0], ![0, 0, c]] := by
  have i : ∀ y, fl64 (fl64 y) = fl64 y := fun y => isDouble_exact (fl64_isDouble y)
  have na : normF fl64 sq ![a, 0, 0] = a := by
    have : normF fl64 sq ![a, 0, 0] = sq (fl64 (a * a)) := by unfold normF dotF; simp [fl64_zero, i]
    exact this.trans ((sqrt_sq hs ha).trans (abs_of_pos ha0))
  have nb : normF fl64 sq ![0, b, 0] = b := by
    have : normF fl64 sq ![0, b, 0] = sq (fl64 (b * b)) := by unfold normF dotF; simp [fl64_zero, i]
    exact this.trans ((sqrt_sq hs hb).trans (abs_of_pos hb0))
  have nc : normF fl64 sq ![0, 0, c] = c := by
    have : normF fl64 sq ![0, 0, c] = sq (fl64 (c * c)) := by unfold normF dotF; simp [fl64_zero, i]
    exact this.trans ((sqrt_sq hs hc).trans (abs_of_pos hc0))
  have d1 : dotF fl64 ![0, b, 0] ![0, 0, c] = 0 := by unfold dotF; simp [fl64_zero]
  have d2 : dotF fl64 ![a, 0, 0] ![0, 0, c] = 0 := by unfold dotF; simp [fl64_zero]
  have d3 : dotF fl64 ![a, 0, 0] ![0, b, 0] = 0 := by unfold dotF; simp [fl64_zero]
  have ac : acosdF fl64 acosl 0 = 90 := by
    unfold acosdF
    have : remainderF 0 (1 / 2) = 0 := (remainderF_zero _ _ (by norm_num)).2 ⟨0, by norm_num⟩
    dsimp only
    rw [if_pos this, zero_div, round_zero, if_pos rfl]
  have fa := isDouble_exact ha
  have fb := isDouble_exact hb
  have fc := isDouble_exact hc
  unfold setLatBaseF
  simp only [na, nb, nc, d1, d2, d3, zero_div, fl64_zero, mul_zero, sub_zero, fl64_one, sqrt_one hs, volumeNormal_zero sq (sqrt_one hs), mul_one, fa, fb, fc, ac,
    true_and, and_true]
  unfold metricsF
  funext i j
  fin_cases i <;> fin_cases j <;> simp [fl64_zero]

/-- Setting the lattice to its own edges and angles can change it: the base vectors become those of C107, whose first is not exact. -/
theorem reset_changes_bug (hs : SqrtOk sq) (cosl acosl : ℚ → ℚ) :
    let R := setLatBaseF fl64 sq acosl ![49, 0, 0] ![0, 49, 0] ![0, 0, 49]
    (setLatParF fl64 sq cosl unitF R.1.a R.1.b R.1.c (R.2 0) (R.2 1) (R.2 2)).base ≠ R.1.base := by
  intro R
  have d : IsDouble 49 := ⟨49, 0, by norm_num, by norm_num⟩
  obtain ⟨h1, ⟨h2, h3, h4⟩, -, -, -, -, h5⟩ := base_right_angles hs acosl d d d (by norm_num) (by norm_num) (by norm_num)
  show (setLatParF fl64 sq cosl unitF (setLatBaseF fl64 sq acosl ![49, 0, 0] ![0, 49, 0] ![0, 0, 49]).1.a _ _ _ _ _).base ≠ _
  rw [h2, show R.1.b = 49 from h3, show R.1.c = 49 from h4, show R.2 = _ from h1, show R.1.base = _ from h5]
  show (setLatParF fl64 sq cosl unitF 49 49 49 90 90 90).base ≠ _
  rw [(right_angles sq cosl (sqrt_one hs) d d d).1]
  intro h
  have := congrFun (congrFun h 0) 0
  have : twice 49 = 49 := this
  exact absurd this (by decide +kernel)

end Verif.Double
