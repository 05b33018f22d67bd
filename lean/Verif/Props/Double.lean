import Verif.Model.Double
import Verif.Props.Rounding
import Verif.Props.PDFGrid
import Mathlib.Tactic.Linarith
import Mathlib.Tactic.Ring
import Mathlib.Tactic.Positivity
import Mathlib.Tactic.FieldSimp
/-!
C70: the r grid in floating-point arithmetic.
-/
namespace Verif.Double
open Verif.PDFGrid Verif.Rounding

/-! ## The rounding of doubles -/

theorem rne_near (y : ℚ) : |(rne y : ℚ) - y| ≤ 1 / 2 := by
  have h1 := Int.floor_le y
  have h2 := Int.lt_floor_add_one y
  unfold rne
  split
  · rw [abs_le]; constructor <;> linarith
  · split
    · push_cast; rw [abs_le]; constructor <;> linarith
    · split
      · rw [abs_le]; constructor <;> linarith
      · push_cast; rw [abs_le]; constructor <;> linarith

theorem rne_int (n : ℤ) : rne (n : ℚ) = n := by
  unfold rne
  rw [Int.floor_intCast, sub_self, if_pos (by norm_num)]

theorem ulp_pos (x : ℚ) : 0 < ulp x := zpow_pos (by norm_num) _

/-- C70. Rounding to double has a relative error of at most 2⁻⁵³: the rounding of C69 and of the theorems below. -/
theorem fl64_rounds : RoundsTo (1 / 2 ^ 53) fl64 := by
  intro x
  by_cases h0 : x = 0
  · subst h0
    have : fl64 0 = 0 := by unfold fl64; rw [zero_div]; have := rne_int 0; simp at this; simp [this]
    rw [this]; simp
  have hx : 0 < |x| := abs_pos.2 h0
  have hu := ulp_pos x
  have e : fl64 x - x = ((rne (x / ulp x) : ℚ) - x / ulp x) * ulp x := by
    unfold fl64; rw [sub_mul, div_mul_cancel₀ _ hu.ne']
  rw [e, abs_mul, abs_of_pos hu]
  have h1 := rne_near (x / ulp x)
  have h2 : (2 : ℚ) ^ Int.log 2 |x| ≤ |x| := by exact_mod_cast Int.zpow_log_le_self (b := 2) (by norm_num) hx
  have h3 : ulp x = 2 ^ Int.log 2 |x| / 2 ^ 52 := by
    unfold ulp; rw [zpow_sub₀ (by norm_num)]; norm_num
  calc |(rne (x / ulp x) : ℚ) - x / ulp x| * ulp x ≤ 1 / 2 * ulp x := mul_le_mul_of_nonneg_right h1 hu.le
    _ ≤ 1 / 2 ^ 53 * |x| := by rw [h3]; linarith

/-- Numbers with at most 53 bits are not changed. -/
theorem fl64_exact (m : ℤ) (e : ℤ) (hm : |m| < 2 ^ 53) : fl64 (m * 2 ^ e) = m * 2 ^ e := by
  by_cases h0 : m = 0
  · subst h0; have := rne_int 0; simp at this; simp [fl64, this]
  have hx0 : (m : ℚ) * 2 ^ e ≠ 0 := mul_ne_zero (by exact_mod_cast h0) (zpow_ne_zero _ (by norm_num))
  have hx : 0 < |(m : ℚ) * 2 ^ e| := abs_pos.2 hx0
  generalize hE : Int.log 2 |(m : ℚ) * 2 ^ e| = E
  have h2 : (2 : ℚ) ^ E ≤ |(m : ℚ) * 2 ^ e| := by
    rw [← hE]; exact_mod_cast Int.zpow_log_le_self (b := 2) (by norm_num) hx
  have h3 : |(m : ℚ) * 2 ^ e| < 2 ^ (53 + e) := by
    rw [abs_mul, abs_of_pos (zpow_pos (by norm_num : (0:ℚ) < 2) e), zpow_add₀ (by norm_num)]
    apply mul_lt_mul_of_pos_right _ (zpow_pos (by norm_num) _)
    exact_mod_cast hm
  have h4 : E < 53 + e := (zpow_lt_zpow_iff_right₀ (by norm_num : (1:ℚ) < 2)).1 (lt_of_le_of_lt h2 h3)
  obtain ⟨d, hd⟩ : ∃ d : ℕ, e - (E - 52) = d := ⟨(e - (E - 52)).toNat, by omega⟩
  have hul : ulp ((m : ℚ) * 2 ^ e) = 2 ^ (E - 52) := by unfold ulp; rw [hE]
  have hq : (m : ℚ) * 2 ^ e / 2 ^ (E - 52) = ((m * 2 ^ d : ℤ) : ℚ) := by
    rw [mul_div_assoc, ← zpow_sub₀ (by norm_num), hd]; push_cast; rw [zpow_natCast]
  unfold fl64
  rw [hul, hq, rne_int, ← hq, div_mul_cancel₀ _ (zpow_ne_zero _ (by norm_num))]

/-! ## Grid steps -/

variable {K : Type} [Field K] [LinearOrder K] [IsStrictOrderedRing K] [FloorRing K]

/-- The precision needed: rounding errors at the size of `r` and of the step stay below the tolerance `eps` = 2⁻²⁶, which the step
exceeds (for doubles: r up to about 10⁷ and steps above 10⁻⁷). -/
structure Fine (u r dr : K) : Prop where
  nonneg : 0 ≤ u
  small : u ≤ 1 / 4
  step : 4 * (eps + u * |r|) ≤ dr
  noise : u * (4 * |r| + 2 * dr) ≤ eps / 4

theorem quotient_bounds {u : K} {fl : K → K} (hf : RoundsTo u fl) (r dr : K) (hd : 0 < dr) :
    ((⌈fl (r / dr)⌉ - 1 : ℤ) : K) * dr < r + u * |r| ∧ r - u * |r| ≤ (⌈fl (r / dr)⌉ : K) * dr := by
  have h := hf (r / dr)
  rw [abs_div, abs_of_pos hd, abs_le] at h
  have h1 := Int.le_ceil (fl (r / dr))
  have h2 := Int.ceil_lt_add_one (fl (r / dr))
  have e1 : u * (|r| / dr) * dr = u * |r| := by field_simp
  have e2 : r / dr * dr = r := div_mul_cancel₀ _ hd.ne'
  constructor
  · push_cast
    have : (⌈fl (r / dr)⌉ : K) - 1 < r / dr + u * (|r| / dr) := by linarith [h.2]
    calc ((⌈fl (r / dr)⌉ : K) - 1) * dr < (r / dr + u * (|r| / dr)) * dr := mul_lt_mul_of_pos_right this hd
      _ = r + u * |r| := by rw [add_mul, e1, e2]
  · have : r / dr - u * (|r| / dr) ≤ (⌈fl (r / dr)⌉ : K) := by linarith [h.1]
    calc r - u * |r| = (r / dr - u * (|r| / dr)) * dr := by rw [sub_mul, e1, e2]
      _ ≤ _ := mul_le_mul_of_nonneg_right this hd.le

/-- C70. In rounded arithmetic the first point of the r grid is above `rmin - 2 eps` and the multiple of the step before it is
below `rmin - eps/2`. -/
theorem rmin_rounded {u : K} {fl : K → K} (hf : RoundsTo u fl) (rmin dr : K) (h : Fine u rmin dr) :
    rmin - 2 * eps < (rminStepsF fl rmin dr : K) * dr ∧ ((rminStepsF fl rmin dr - 1 : ℤ) : K) * dr < rmin - eps / 2 := by
  have he : (0 : K) < eps := eps_pos
  have hu := h.nonneg
  have hr := abs_nonneg rmin
  have hur : 0 ≤ u * |rmin| := mul_nonneg hu hr
  have hd : 0 < dr := by linarith [h.step]
  have hud : 0 ≤ u * dr := mul_nonneg hu hd.le
  have hue : 0 ≤ u * eps := mul_nonneg hu he.le
  have hno : 4 * (u * |rmin|) + 2 * (u * dr) ≤ eps / 4 := by have := h.noise; nlinarith
  obtain ⟨q1, q2⟩ := quotient_bounds hf rmin dr hd
  unfold rminStepsF
  dsimp only
  generalize ⌈fl (rmin / dr)⌉ = rv at q1 q2
  generalize hm : (((rv - 1 : ℤ) : K) * dr) = md at q1
  have hmd : (rv : K) * dr = md + dr := by rw [← hm]; push_cast; ring
  rw [hmd] at q2
  have hp := hf md
  have ht := hf (rmin - fl md)
  generalize fl md = p at hp ht
  have hmabs : |md| ≤ |rmin| + u * |rmin| + dr := by
    rw [abs_le]; constructor
    · linarith [neg_abs_le rmin]
    · linarith [le_abs_self rmin]
  have humd : u * |md| ≤ u * |rmin| + (u * |rmin|) / 4 + u * dr := by
    calc u * |md| ≤ u * (|rmin| + u * |rmin| + dr) := mul_le_mul_of_nonneg_left hmabs hu
      _ = u * |rmin| + u * (u * |rmin|) + u * dr := by ring
      _ ≤ _ := by nlinarith [h.small]
  rw [abs_le] at hp
  split
  · rename_i hc
    -- the test succeeded: the multiple before is within the tolerance
    have h1 : |rmin - p| ≤ eps + u * |rmin - p| := by
      have : rmin - p = fl (rmin - p) - (fl (rmin - p) - (rmin - p)) := by ring
      calc |rmin - p| = |fl (rmin - p) - (fl (rmin - p) - (rmin - p))| := by rw [← this]
        _ ≤ |fl (rmin - p)| + |fl (rmin - p) - (rmin - p)| := abs_sub _ _
        _ ≤ _ := by linarith
    have h2 : |rmin - p| ≤ 4 / 3 * eps := by nlinarith [h.small, abs_nonneg (rmin - p)]
    rw [abs_le] at h2
    refine ⟨by rw [hm]; linarith [hp.1, hp.2], ?_⟩
    have : ((rv - 1 - 1 : ℤ) : K) * dr = md - dr := by rw [← hm]; push_cast; ring
    rw [this]
    linarith [h.step, hp.1, hp.2]
  · rename_i hc
    rw [not_le] at hc
    refine ⟨by rw [hmd]; linarith, ?_⟩
    rw [hm]
    have h1 : |fl (rmin - p)| ≤ |rmin - p| + u * |rmin - p| := by
      have : fl (rmin - p) = (fl (rmin - p) - (rmin - p)) + (rmin - p) := by ring
      calc |fl (rmin - p)| = |(fl (rmin - p) - (rmin - p)) + (rmin - p)| := by rw [← this]
        _ ≤ _ := (abs_add_le _ _).trans (by linarith)
    have h2 : eps < 5 / 4 * |rmin - p| := by nlinarith [h.small, abs_nonneg (rmin - p)]
    rcases le_or_gt p rmin with hle | hgt
    · rw [abs_of_nonneg (by linarith)] at h2
      linarith [hp.1, hp.2]
    · exfalso
      rw [abs_of_neg (by linarith)] at h2
      linarith [hp.1, hp.2]

/-- C70. So a lower limit given as a multiple of the step, up to an input error of `eps/2`, starts the grid at that multiple. -/
theorem rmin_multiple {u : K} {fl : K → K} (hf : RoundsTo u fl) (rmin dr : K) (h : Fine u rmin dr) (k : ℤ)
    (hk : |rmin - (k : K) * dr| ≤ eps / 2) : rminStepsF fl rmin dr = k := by
  have he : (0 : K) < eps := eps_pos
  have hd : 4 * eps ≤ dr := by have := mul_nonneg h.nonneg (abs_nonneg rmin); linarith [h.step]
  obtain ⟨h1, h2⟩ := rmin_rounded hf rmin dr h
  rw [abs_le] at hk
  have hd0 : 0 < dr := by linarith
  have a1 : rminStepsF fl rmin dr - 1 < k := by
    have : ((rminStepsF fl rmin dr - 1 : ℤ) : K) * dr < (k : K) * dr := by linarith [hk.1, hk.2]
    exact_mod_cast lt_of_mul_lt_mul_right this hd0.le
  have a2 : k - 1 < rminStepsF fl rmin dr := by
    have : ((k - 1 : ℤ) : K) * dr < (rminStepsF fl rmin dr : K) * dr := by push_cast; linarith [hk.1, hk.2]
    exact_mod_cast lt_of_mul_lt_mul_right this hd0.le
  omega

/-- C70. The grid in rounded arithmetic contains every multiple of the step in `[rmin - eps/2, rmax - u rmax)`, and only multiples in
`(rmin - 2 eps, rmax + u rmax)`, each rounded once. -/
theorem rgrid_rounded {u : K} {fl : K → K} (hf : RoundsTo u fl) (rmin rmax dr : K) (h : Fine u rmin dr) :
    (∀ n : ℤ, rmin - eps / 2 ≤ (n : K) * dr → (n : K) * dr < rmax - u * |rmax| → fl ((n : K) * dr) ∈ rgridF fl rmin rmax dr) ∧
    (∀ x ∈ rgridF fl rmin rmax dr, ∃ n : ℤ, x = fl ((n : K) * dr) ∧ rmin - 2 * eps < (n : K) * dr ∧
      (n : K) * dr < rmax + u * |rmax|) := by
  have he : (0 : K) < eps := eps_pos
  have hd0 : 0 < dr := by have := mul_nonneg h.nonneg (abs_nonneg rmin); linarith [h.step]
  obtain ⟨h1, h2⟩ := rmin_rounded hf rmin dr h
  obtain ⟨q1, q2⟩ := quotient_bounds hf rmax dr hd0
  have mem : ∀ (a b n : ℤ), n ∈ intRange a b ↔ a ≤ n ∧ n < b := by
    intro a b n
    unfold intRange
    rw [List.mem_map]
    constructor
    · rintro ⟨k, hk, rfl⟩; rw [List.mem_range] at hk; omega
    · rintro ⟨x1, x2⟩; exact ⟨(n - a).toNat, by rw [List.mem_range]; omega, by omega⟩
  constructor
  · intro n n1 n2
    apply List.mem_map_of_mem (f := fun n : ℤ => fl ((n : K) * dr))
    rw [mem]
    constructor
    · have : ((rminStepsF fl rmin dr - 1 : ℤ) : K) * dr < (n : K) * dr := by linarith
      have := lt_of_mul_lt_mul_right this hd0.le
      have : rminStepsF fl rmin dr - 1 < n := by exact_mod_cast this
      omega
    · have : (n : K) * dr < (⌈fl (rmax / dr)⌉ : K) * dr := by linarith
      exact_mod_cast lt_of_mul_lt_mul_right this hd0.le
  · intro x hx
    obtain ⟨n, hn, rfl⟩ := List.mem_map.1 hx
    rw [mem] at hn
    refine ⟨n, rfl, ?_, ?_⟩
    · have : (rminStepsF fl rmin dr : K) ≤ n := by exact_mod_cast hn.1
      have := mul_le_mul_of_nonneg_right this hd0.le
      linarith
    · have h3 : n ≤ ⌈fl (rmax / dr)⌉ - 1 := by have := hn.2; unfold rmaxStepsF at this; omega
      have h4 : (n : K) ≤ ((⌈fl (rmax / dr)⌉ - 1 : ℤ) : K) := by exact_mod_cast h3
      have := mul_le_mul_of_nonneg_right h4 hd0.le
      linarith

/-- The upper end has no tolerance: with doubles `rmax = 0.07` and `rstep = 0.01` the grid includes the point 0.07 itself, while
`rmax = 0.06` excludes 0.06. -/
theorem rmax_bug :
    fl64 (7 / 100) ∈ rgridF fl64 0 (fl64 (7 / 100)) (fl64 (1 / 100)) ∧
    fl64 (6 / 100) ∉ rgridF fl64 0 (fl64 (6 / 100)) (fl64 (1 / 100)) := by decide +kernel

/-- `Fine` holds for doubles with usual arguments, here rmin = 1.2 and a step of 0.01. -/
example : Fine (1 / 2 ^ 53) (fl64 (12 / 10)) (fl64 (1 / 100)) :=
  ⟨by decide +kernel, by decide +kernel, by decide +kernel, by decide +kernel⟩

example : rminStepsF fl64 (fl64 (12 / 10)) (fl64 (1 / 100)) = 120 :=
  rmin_multiple fl64_rounds _ _ ⟨by decide +kernel, by decide +kernel, by decide +kernel, by decide +kernel⟩ 120 (by decide +kernel)

/-- The tolerance is needed: 0.07 / 0.01 is rounded up. -/
example : ⌈fl64 (fl64 (7 / 100) / fl64 (1 / 100))⌉ = 8 ∧ rminStepsF fl64 (fl64 (7 / 100)) (fl64 (1 / 100)) = 7 := by decide +kernel

end Verif.Double
