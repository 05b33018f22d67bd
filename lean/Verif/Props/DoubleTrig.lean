import Verif.Model.DoubleTrig
import Verif.Props.DoubleCmp
import Verif.Props.MathUtils
/-! C106: trigonometric functions of degrees in double precision. -/
namespace Verif.Double

/-! ### Multiples of 60 and 90 degrees -/

theorem remainderF_zero (x y : ℚ) (hy : 0 < y) : remainderF x y = 0 ↔ ∃ k : ℤ, x = y * k := by
  unfold remainderF
  refine ⟨fun h => ⟨_, sub_eq_zero.1 h⟩, ?_⟩
  rintro ⟨k, rfl⟩
  rw [mul_div_cancel_left₀ _ hy.ne', rne_int, sub_self]

theorem fmodF_range (x : ℚ) : 0 ≤ fmodF x 360 ∧ fmodF x 360 < 360 := by
  unfold fmodF
  have h1 := Int.floor_le (x / 360)
  have h2 := Int.lt_floor_add_one (x / 360)
  constructor <;> linarith

/-- The angles with exact values. -/
theorem table_angles (x : ℚ) (h : remainderF (fmodF |x| 360) 60 = 0 ∨ remainderF (fmodF |x| 360) 90 = 0) :
    ∃ k : ℤ, fmodF |x| 360 = k ∧ round (fmodF |x| 360) = k ∧ (k = 0 ∨ k = 60 ∨ k = 90 ∨ k = 120 ∨ k = 180 ∨ k = 240 ∨ k = 270 ∨ k = 300) := by
  obtain ⟨h0, h1⟩ := fmodF_range |x|
  rcases h with h | h
  · obtain ⟨k, hk⟩ := (remainderF_zero _ _ (by norm_num)).1 h
    have e : fmodF |x| 360 = ((60 * k : ℤ) : ℚ) := by rw [hk]; push_cast; ring
    refine ⟨60 * k, e, by rw [e, round_intCast], ?_⟩
    rw [e] at h0 h1
    have h0 : 0 ≤ 60 * k := by exact_mod_cast h0
    have h1 : 60 * k < 360 := by exact_mod_cast h1
    omega
  · obtain ⟨k, hk⟩ := (remainderF_zero _ _ (by norm_num)).1 h
    have e : fmodF |x| 360 = ((90 * k : ℤ) : ℚ) := by rw [hk]; push_cast; ring
    refine ⟨90 * k, e, by rw [e, round_intCast], ?_⟩
    rw [e] at h0 h1
    have h0 : 0 ≤ 90 * k := by exact_mod_cast h0
    have h1 : 90 * k < 360 := by exact_mod_cast h1
    omega

theorem cos_fmodF (x : ℚ) : Real.cos ((x : ℝ) * Real.pi / 180) = Real.cos (((fmodF |x| 360 : ℚ) : ℝ) * Real.pi / 180) := by
  unfold fmodF
  have e : (((|x| - 360 * (⌊|x| / 360⌋ : ℚ) : ℚ)) : ℝ) * Real.pi / 180 = |(x : ℝ) * Real.pi / 180| - (⌊|x| / 360⌋ : ℤ) * (2 * Real.pi) := by
    rw [abs_div, abs_mul, abs_of_pos Real.pi_pos, abs_of_pos (by norm_num : (0 : ℝ) < 180)]
    push_cast
    ring
  rw [e, Real.cos_sub_int_mul_two_pi, Real.cos_abs]

/-- An angle is a multiple of 60 or 90 degrees. -/
def Tabulated (x : ℚ) : Prop := ∃ k : ℤ, x = 60 * k ∨ x = 90 * k

theorem tabulated_iff (x : ℚ) : Tabulated x ↔ remainderF (fmodF |x| 360) 60 = 0 ∨ remainderF (fmodF |x| 360) 90 = 0 := by
  rw [remainderF_zero _ _ (by norm_num), remainderF_zero _ _ (by norm_num)]
  unfold fmodF Tabulated
  constructor
  · rintro ⟨k, rfl | rfl⟩
    · refine Or.inl ⟨|k| - 6 * ⌊|60 * (k : ℚ)| / 360⌋, ?_⟩
      rw [abs_mul, abs_of_pos (by norm_num : (0 : ℚ) < 60)]
      push_cast
      ring
    · refine Or.inr ⟨|k| - 4 * ⌊|90 * (k : ℚ)| / 360⌋, ?_⟩
      rw [abs_mul, abs_of_pos (by norm_num : (0 : ℚ) < 90)]
      push_cast
      ring
  · rintro (⟨k, hk⟩ | ⟨k, hk⟩)
    · rcases abs_choice x with h | h
      · exact ⟨k + 6 * ⌊|x| / 360⌋, Or.inl (by push_cast; linarith)⟩
      · exact ⟨-(k + 6 * ⌊|x| / 360⌋), Or.inl (by push_cast; linarith)⟩
    · rcases abs_choice x with h | h
      · exact ⟨k + 4 * ⌊|x| / 360⌋, Or.inr (by push_cast; linarith)⟩
      · exact ⟨-(k + 4 * ⌊|x| / 360⌋), Or.inr (by push_cast; linarith)⟩

/-- **C106.** At multiples of 60 and 90 degrees, in whatever turn, the cosine is exact, whatever the C library does. -/
theorem cosdF_exact (fl c : ℚ → ℚ) (x : ℚ) (h : Tabulated x) : (cosdF fl c x : ℝ) = Real.cos (x * Real.pi / 180) := by
  have h := (tabulated_iff x).1 h
  obtain ⟨k, e, hr, hk⟩ := table_angles x h
  rw [cos_fmodF, e]
  have key : ((if k = 0 then (1 : ℚ) else if k = 60 ∨ k = 300 then 1 / 2 else if k = 90 ∨ k = 270 then 0 else if k = 120 ∨ k = 240 then -1 / 2
      else if k = 180 then -1 else c (fl (fl (x / 180) * piF)) : ℚ) : ℝ) = Real.cos (((k : ℚ) : ℝ) * Real.pi / 180) := by
    have hd := MathUtils.cosd_eq_cos
    have ex := MathUtils.cosd_exact 0
    have ex' := MathUtils.cosd_exact (-1)
    have s : ∀ d : ℝ, Real.cos (d * Real.pi / 180) = Real.cos ((360 - d) * Real.pi / 180) := fun d => by
      rw [← Real.cos_two_pi_sub]
      congr 1
      ring
    rcases hk with rfl | rfl | rfl | rfl | rfl | rfl | rfl | rfl
    · simp
    · rw [← hd]; have := ex.2.1; norm_num at this ⊢; rw [this]
    · rw [← hd]; have := ex.2.2.1; norm_num at this ⊢; rw [this]
    · rw [← hd]; have := ex.2.2.2.1; norm_num at this ⊢; rw [this]
    · rw [← hd]; have := ex.2.2.2.2.1; norm_num at this ⊢; rw [this]
    · rw [s, ← hd]; have := ex.2.2.2.1; norm_num at this ⊢; rw [this]
    · rw [s, ← hd]; have := ex.2.2.1; norm_num at this ⊢; rw [this]
    · rw [s, ← hd]; have := ex.2.1; norm_num at this ⊢; rw [this]
  rw [← key]
  unfold cosdF
  dsimp only
  rw [if_pos h, hr]

theorem cosdF_generic (fl c : ℚ → ℚ) (x : ℚ) (h : ¬ Tabulated x) : cosdF fl c x = c (fl (fl (x / 180) * piF)) := by
  unfold cosdF
  dsimp only
  rw [if_neg (fun h' => h ((tabulated_iff x).2 h'))]

theorem isDouble_neg {x : ℚ} (h : IsDouble x) : IsDouble (-x) := by
  obtain ⟨m, e, hm, rfl⟩ := h
  exact ⟨-m, e, by rwa [abs_neg], by push_cast; ring⟩

/-- The cosine is even, bit for bit, if that of the library is. -/
theorem cosdF_even (c : ℚ → ℚ) (hc : ∀ y, c (-y) = c y) (x : ℚ) : cosdF fl64 c (-x) = cosdF fl64 c x := by
  have e : fl64 (fl64 (-x / 180) * piF) = -fl64 (fl64 (x / 180) * piF) := by rw [neg_div, fl64_neg, neg_mul, fl64_neg]
  have e' : c (fl64 (fl64 (-x / 180) * piF)) = c (fl64 (fl64 (x / 180) * piF)) := by rw [e, hc]
  unfold cosdF
  generalize c (fl64 (fl64 (-x / 180) * piF)) = g at e'
  generalize c (fl64 (fl64 (x / 180) * piF)) = g' at e'
  subst e'
  rw [abs_neg]

/-- The values lie between -1 and 1. -/
theorem cosdF_range (fl c : ℚ → ℚ) (hc : ∀ y, |c y| ≤ 1) (x : ℚ) : |cosdF fl c x| ≤ 1 := by
  by_cases ht : Tabulated x
  · have h : |(cosdF fl c x : ℝ)| ≤ 1 := by
      rw [cosdF_exact fl c x ht]
      exact Real.abs_cos_le_one _
    exact_mod_cast h
  · rw [cosdF_generic fl c x ht]
    exact hc _

/-! ### Other angles -/

/-- The accuracy of the cosine of the C library at doubles. -/
def CosWithin (u : ℝ) (c : ℚ → ℚ) : Prop := ∀ y : ℚ, IsDouble y → |(c y : ℝ) - Real.cos y| ≤ u

theorem piF_near : |(piF : ℝ) - Real.pi| ≤ 1 / 2 ^ 52 := by
  have h1 := Real.pi_gt_d20
  have h2 := Real.pi_lt_d20
  unfold piF
  rw [abs_le]
  push_cast
  constructor <;> norm_num at h1 h2 ⊢ <;> linarith

theorem fl64_real (x : ℚ) : |(fl64 x : ℝ) - x| ≤ 1 / 2 ^ 53 * |(x : ℝ)| := by
  have := fl64_rounds x
  have h : ((|fl64 x - x| : ℚ) : ℝ) ≤ ((1 / 2 ^ 53 * |x| : ℚ) : ℝ) := Rat.cast_le.2 this
  push_cast at h
  exact h

/-- The argument that `cosd` passes on. -/
theorem radians_near (x : ℚ) : |((fl64 (fl64 (x / 180) * piF) : ℚ) : ℝ) - x * Real.pi / 180| ≤ |(x : ℝ)| / 2 ^ 57 := by
  have hp := piF_near
  have h1 := fl64_real (x / 180)
  have h2 := fl64_real (fl64 (x / 180) * piF)
  have hp3 := Real.pi_lt_d20
  have hp3' := Real.pi_gt_d20
  generalize fl64 (fl64 (x / 180) * piF) = w at h2 ⊢
  generalize fl64 (x / 180) = q at h1 h2
  push_cast at h1 h2
  have hpp : |(piF : ℝ)| ≤ 3.15 := by
    rw [abs_le] at hp ⊢
    constructor <;> [norm_num at *; norm_num at *] <;> linarith
  rw [abs_div, abs_of_pos (by norm_num : (0 : ℝ) < 180)] at h1
  have hx := abs_nonneg (x : ℝ)
  have hq : |(q : ℝ)| ≤ |(x : ℝ)| / 180 * (1 + 1 / 2 ^ 53) := by
    have := abs_add_le ((q : ℝ) - x / 180) (x / 180)
    rw [sub_add_cancel, abs_div, abs_of_pos (by norm_num : (0 : ℝ) < 180)] at this
    linarith
  have e : (w : ℝ) - x * Real.pi / 180 = (w - q * piF) + (q - x / 180) * piF + x / 180 * (piF - Real.pi) := by ring
  rw [e]
  refine (abs_add_le _ _).trans ((add_le_add_left (abs_add_le _ _) _).trans ?_)
  rw [abs_mul ((q : ℝ) - x / 180), abs_mul ((x : ℝ) / 180), abs_div (x : ℝ), abs_of_pos (by norm_num : (0 : ℝ) < 180)]
  rw [abs_mul] at h2
  have a1 : |(q : ℝ)| * |(piF : ℝ)| ≤ |(x : ℝ)| / 180 * (1 + 1 / 2 ^ 53) * 3.15 := mul_le_mul hq hpp (abs_nonneg _) (by positivity)
  have a2 : |(q : ℝ) - x / 180| * |(piF : ℝ)| ≤ 1 / 2 ^ 53 * (|(x : ℝ)| / 180) * 3.15 := mul_le_mul h1 hpp (abs_nonneg _) (by positivity)
  have a3 : |(x : ℝ)| / 180 * |(piF : ℝ) - Real.pi| ≤ |(x : ℝ)| / 180 * (1 / 2 ^ 52) := mul_le_mul_of_nonneg_left hp (by positivity)
  norm_num at h2 a1 a2 a3 ⊢
  nlinarith

/-- **C106.** The cosine of any angle is as accurate as that of the library, up to the rounding of the angle in radians. -/
theorem cosdF_near (u : ℝ) (hu : 0 ≤ u) (c : ℚ → ℚ) (hc : CosWithin u c) (x : ℚ) :
    |(cosdF fl64 c x : ℝ) - Real.cos (x * Real.pi / 180)| ≤ u + |(x : ℝ)| / 2 ^ 57 := by
  by_cases ht : Tabulated x
  · rw [cosdF_exact _ _ _ ht, sub_self, abs_zero]
    positivity
  · rw [cosdF_generic _ _ _ ht]
    have h1 := hc _ (fl64_isDouble (fl64 (x / 180) * piF))
    have h2 := radians_near x
    generalize fl64 (fl64 (x / 180) * piF) = w at h1 h2
    have h3 := Real.abs_cos_sub_cos_le (w : ℝ) (x * Real.pi / 180)
    have := abs_add_le ((c w : ℝ) - Real.cos w) (Real.cos w - Real.cos (x * Real.pi / 180))
    rw [sub_add_sub_cancel] at this
    linarith

/-! ### Sine -/

/-- **C106.** The sine of any angle. -/
theorem sindF_near (u : ℝ) (hu : 0 ≤ u) (c : ℚ → ℚ) (hc : CosWithin u c) (x : ℚ) :
    |(sindF fl64 c x : ℝ) - Real.sin (x * Real.pi / 180)| ≤ u + |(90 - x : ℝ)| / 2 ^ 56 := by
  unfold sindF
  have h1 := cosdF_near u hu c hc (fl64 (90 - x))
  have h2 := fl64_real (90 - x)
  generalize fl64 (90 - x) = y at h1 h2
  push_cast at h2
  have h3 := Real.abs_cos_sub_cos_le ((y : ℝ) * Real.pi / 180) ((90 - x : ℝ) * Real.pi / 180)
  have e : Real.cos ((90 - x : ℝ) * Real.pi / 180) = Real.sin (x * Real.pi / 180) := by
    rw [← Real.cos_pi_div_two_sub]
    congr 1
    ring
  rw [e] at h3
  have e' : (y : ℝ) * Real.pi / 180 - (90 - x : ℝ) * Real.pi / 180 = (y - (90 - x)) * (Real.pi / 180) := by ring
  rw [e', abs_mul, abs_of_pos (by have := Real.pi_pos; positivity : 0 < Real.pi / 180)] at h3
  have hp := Real.pi_lt_d20
  have h4 : |(y : ℝ) - (90 - x)| * (Real.pi / 180) ≤ 1 / 2 ^ 53 * |(90 - x : ℝ)| * (1 / 50) :=
    mul_le_mul h2 (by norm_num at hp ⊢; linarith) (by have := Real.pi_pos; positivity) (by positivity)
  have h5 : |(y : ℝ)| ≤ |(90 - x : ℝ)| * (1 + 1 / 2 ^ 53) := by
    have := abs_add_le ((y : ℝ) - (90 - x)) (90 - x)
    rw [sub_add_cancel] at this
    linarith
  have := abs_add_le ((cosdF fl64 c y : ℝ) - Real.cos (y * Real.pi / 180)) (Real.cos (y * Real.pi / 180) - Real.sin (x * Real.pi / 180))
  rw [sub_add_sub_cancel] at this
  have ha := abs_nonneg (90 - x : ℝ)
  norm_num at h4 h5 h1 ⊢
  linarith

/-- At multiples of 90 degrees, and 30 degrees from those of 60 (that is at 30, 90, 150 and so on), the sine is exact. -/
theorem sindF_exact (c : ℚ → ℚ) (x : ℚ) (hx : |x| < 2 ^ 52) (h : Tabulated (90 - x)) : (sindF fl64 c x : ℝ) = Real.sin (x * Real.pi / 180) := by
  have hd : fl64 (90 - x) = 90 - x := by
    have : ∃ n : ℤ, 90 - x = n := by
      obtain ⟨k, h | h⟩ := h
      · exact ⟨60 * k, by rw [h]; push_cast; ring⟩
      · exact ⟨90 * k, by rw [h]; push_cast; ring⟩
    obtain ⟨n, hn⟩ := this
    rw [hn]
    have hb : |n| < 2 ^ 53 := by
      have : |(n : ℚ)| < 2 ^ 53 := by
        rw [← hn]
        rw [abs_lt] at hx ⊢
        constructor <;> linarith [hx.1, hx.2]
      exact_mod_cast this
    exact isDouble_exact ⟨n, 0, hb, by simp⟩
  unfold sindF
  rw [hd, cosdF_exact _ _ _ h, ← Real.cos_pi_div_two_sub]
  congr 1
  push_cast
  ring

/-- The sine of tiny angles is zero, not just close to it: the sine is not accurate relative to its size. -/
theorem sindF_tiny_bug (c : ℚ → ℚ) (x : ℚ) (hx : |x| ≤ 1 / 2 ^ 48) : sindF fl64 c x = 0 := by
  have h : fl64 (90 - x) = 90 := by
    have a : fl64 (90 - 1 / 2 ^ 48) = 90 := by decide +kernel
    have b : fl64 (90 + 1 / 2 ^ 48) = 90 := by decide +kernel
    rw [abs_le] at hx
    have h1 := fl64_mono (show 90 - 1 / 2 ^ 48 ≤ 90 - x by linarith)
    have h2 := fl64_mono (show 90 - x ≤ 90 + 1 / 2 ^ 48 by linarith)
    rw [a] at h1
    rw [b] at h2
    exact le_antisymm h2 h1
  unfold sindF
  rw [h]
  have e := cosdF_exact fl64 c 90 ⟨1, Or.inr (by norm_num)⟩
  have z : Real.cos (((90 : ℚ) : ℝ) * Real.pi / 180) = 0 := by
    rw [← Real.cos_pi_div_two]
    congr 1
    push_cast
    ring
  rw [z] at e
  exact_mod_cast e

/-! ### Arccosine -/

/-- The accuracy of the arccosine of the C library at doubles, and that it returns doubles between 0 and the double nearest to π. -/
def AcosWithin (u : ℝ) (a : ℚ → ℚ) : Prop := ∀ y : ℚ, |y| ≤ 1 → |(a y : ℝ) - Real.arccos y| ≤ u ∧ 0 ≤ a y ∧ a y ≤ piF

theorem acosd_real (fl a : ℚ → ℚ) (x : ℚ) : ((acosdF fl a x : ℝ) = Real.arccos x * 180 / Real.pi ∧ |x| ≤ 1) ∨ acosdF fl a x = fl (fl (a x / piF) * 180) := by
  by_cases h : remainderF x (1 / 2) = 0
  · obtain ⟨k, hk⟩ := (remainderF_zero _ _ (by norm_num)).1 h
    have hr : round (x / (1 / 2)) = k := by
      rw [hk, mul_div_cancel_left₀ _ (by norm_num), round_intCast]
    by_cases hk' : k = 0 ∨ k = 1 ∨ k = -1 ∨ k = 2 ∨ k = -2
    · left
      have e := MathUtils.acosd_eq_arccos x
      rw [← e]
      have hm : MathUtils.remainder (x : ℝ) (1 / 2) = 0 := by
        unfold MathUtils.remainder
        rw [hk]
        push_cast
        rw [mul_div_cancel_left₀ _ (by norm_num), round_intCast]
        ring
      have hr' : round ((x : ℝ) / (1 / 2)) = k := by
        rw [hk]
        push_cast
        rw [mul_div_cancel_left₀ _ (by norm_num), round_intCast]
      unfold acosdF MathUtils.acosd
      dsimp only
      rw [if_pos h, if_pos hm, hr, hr', hk]
      rcases hk' with rfl | rfl | rfl | rfl | rfl <;> norm_num
    · right
      unfold acosdF
      dsimp only
      rw [if_pos h, hr]
      push Not at hk'
      rw [if_neg hk'.1, if_neg hk'.2.1, if_neg hk'.2.2.1, if_neg hk'.2.2.2.1, if_neg hk'.2.2.2.2]
  · right
    unfold acosdF
    dsimp only
    rw [if_neg h]

/-- **C106.** The arccosine is an angle between 0 and 180 degrees, as accurate as that of the library. -/
theorem acosdF_near (u : ℝ) (hu : 0 ≤ u) (a : ℚ → ℚ) (ha : AcosWithin u a) (x : ℚ) (hx : |x| ≤ 1) :
    |(acosdF fl64 a x : ℝ) - Real.arccos x * 180 / Real.pi| ≤ 60 * u + 1 / 2 ^ 44 ∧ 0 ≤ acosdF fl64 a x ∧ acosdF fl64 a x ≤ 180 := by
  obtain ⟨h1, h2, h3⟩ := ha x hx
  have hpi := Real.pi_pos
  have a0 := Real.arccos_nonneg (x : ℝ)
  have a1 := Real.arccos_le_pi (x : ℝ)
  have hp0 : (0 : ℚ) < piF := by unfold piF; norm_num
  rcases acosd_real fl64 a x with ⟨h, -⟩ | h
  · refine ⟨by rw [h, sub_self, abs_zero]; positivity, ?_, ?_⟩
    · have : (0 : ℝ) ≤ (acosdF fl64 a x : ℝ) := by rw [h]; positivity
      exact_mod_cast this
    · have : (acosdF fl64 a x : ℝ) ≤ 180 := by
        rw [h, div_le_iff₀ hpi]
        linarith
      exact_mod_cast this
  · rw [h]
    have d1 : IsDouble 180 := ⟨180, 0, by norm_num, by norm_num⟩
    have q0 : 0 ≤ fl64 (a x / piF) := le_fl64 zero_isDouble (div_nonneg h2 hp0.le)
    have q1 : fl64 (a x / piF) ≤ 1 := fl64_le one_isDouble (by rw [div_le_one hp0]; exact h3)
    refine ⟨?_, le_fl64 zero_isDouble (by linarith), fl64_le d1 (by linarith)⟩
    have r1 := fl64_real (a x / piF)
    have r2 := fl64_real (fl64 (a x / piF) * 180)
    generalize fl64 (fl64 (a x / piF) * 180) = w at r2 ⊢
    generalize fl64 (a x / piF) = q at q0 q1 r1 r2
    have hpn := piF_near
    have hpl := Real.pi_gt_d20
    have hp3 : (3.1 : ℝ) ≤ (piF : ℝ) := by
      rw [abs_le] at hpn
      norm_num at hpn hpl ⊢
      linarith [hpn.1]
    push_cast at r1 r2
    have q0' : (0 : ℝ) ≤ q := by exact_mod_cast q0
    have q1' : (q : ℝ) ≤ 1 := by exact_mod_cast q1
    have t0 : (0 : ℝ) ≤ (a x : ℝ) := by exact_mod_cast h2
    have t1 : (a x : ℝ) / piF ≤ 1 := by
      rw [div_le_one (by linarith)]
      exact_mod_cast h3
    have tt0 : (0 : ℝ) ≤ (a x : ℝ) / piF := div_nonneg t0 (by linarith)
    rw [abs_of_nonneg tt0] at r1
    rw [abs_of_nonneg (by linarith : (0 : ℝ) ≤ q * 180)] at r2
    have e : (w : ℝ) - Real.arccos x * 180 / Real.pi = (w - q * 180) + (q - a x / piF) * 180 + (a x / piF * 180 - Real.arccos x * 180 / Real.pi) := by ring
    have e2 : (a x / piF * 180 : ℝ) - Real.arccos x * 180 / Real.pi = ((a x - Real.arccos x) + (a x / piF) * (Real.pi - piF)) * (180 / Real.pi) := by
      field_simp
      ring
    rw [e, e2]
    refine (abs_add_le _ _).trans ((add_le_add_left (abs_add_le _ _) _).trans ?_)
    rw [abs_mul, abs_mul, abs_of_pos (by norm_num : (0 : ℝ) < 180), abs_of_pos (by positivity : (0 : ℝ) < 180 / Real.pi)]
    have b1 : |((a x : ℝ) - Real.arccos x) + (a x / piF) * (Real.pi - piF)| ≤ u + 1 / 2 ^ 52 := by
      refine (abs_add_le _ _).trans (add_le_add h1 ?_)
      rw [abs_mul, abs_of_nonneg tt0, abs_sub_comm]
      calc _ ≤ 1 * |(piF : ℝ) - Real.pi| := mul_le_mul_of_nonneg_right t1 (abs_nonneg _)
        _ ≤ _ := by rw [one_mul]; exact hpn
    have b2 : 180 / Real.pi ≤ 60 := by
      rw [div_le_iff₀ hpi]
      norm_num at hpl
      linarith
    have b3 := mul_le_mul b1 b2 (by positivity) (by positivity)
    norm_num at r1 r2 b3 ⊢
    nlinarith

/-- Libraries that meet the hypotheses exist. -/
theorem libraries_exist : (∃ c, CosWithin (1 / 2 ^ 53) c ∧ ∀ y, |c y| ≤ 1) ∧ ∃ a, AcosWithin (1 / 2 ^ 51) a := by
  constructor
  · have h : ∀ y : ℚ, ∃ q : ℚ, |(q : ℝ) - Real.cos y| ≤ 1 / 2 ^ 53 ∧ |q| ≤ 1 := by
      intro y
      have c1 := Real.neg_one_le_cos (y : ℝ)
      have c2 := Real.cos_le_one (y : ℝ)
      rcases le_total 0 (Real.cos (y : ℝ)) with hc | hc
      · obtain ⟨q, q1, q2⟩ := exists_rat_btwn (show Real.cos (y : ℝ) - 1 / 2 ^ 53 < Real.cos y by norm_num)
        refine ⟨q, by rw [abs_le]; constructor <;> linarith, ?_⟩
        have : |(q : ℝ)| ≤ 1 := by rw [abs_le]; constructor <;> [(norm_num at q1 ⊢; linarith); linarith]
        exact_mod_cast this
      · obtain ⟨q, q1, q2⟩ := exists_rat_btwn (show Real.cos (y : ℝ) < Real.cos y + 1 / 2 ^ 53 by norm_num)
        refine ⟨q, by rw [abs_le]; constructor <;> linarith, ?_⟩
        have : |(q : ℝ)| ≤ 1 := by rw [abs_le]; constructor <;> [linarith; (norm_num at q2 ⊢; linarith)]
        exact_mod_cast this
    exact ⟨fun y => (h y).choose, fun y _ => (h y).choose_spec.1, fun y => (h y).choose_spec.2⟩
  · have h : ∀ y : ℚ, ∃ q : ℚ, |(q : ℝ) - Real.arccos y| ≤ 1 / 2 ^ 51 ∧ 0 ≤ q ∧ q ≤ piF := by
      intro y
      have a0 := Real.arccos_nonneg (y : ℝ)
      have a1 := Real.arccos_le_pi (y : ℝ)
      have hp := piF_near
      rw [abs_le] at hp
      obtain ⟨q, q1, q2⟩ := exists_rat_btwn (show Real.arccos (y : ℝ) < Real.arccos y + 1 / 2 ^ 53 by norm_num)
      have q0 : 0 ≤ q := by
        have : (0 : ℝ) ≤ q := by linarith
        exact_mod_cast this
      refine ⟨min q piF, ?_, le_min q0 (by unfold piF; norm_num), min_le_right _ _⟩
      rcases min_choice q piF with e | e
      · rw [e, abs_le]
        norm_num at q2 ⊢
        constructor <;> linarith
      · have : (piF : ℝ) ≤ q := by
          have := min_le_left q piF
          rw [e] at this
          exact_mod_cast this
        rw [e, abs_le]
        norm_num at q2 hp ⊢
        constructor <;> linarith
    exact ⟨fun y => (h y).choose, fun y _ => (h y).choose_spec⟩

/-- Some angles. -/
example : sindF fl64 (fun _ => 0) 30 = 1 / 2 ∧ cosdF fl64 (fun _ => 0) (-840) = -1 / 2 ∧ acosdF fl64 (fun _ => 0) (-1 / 2) = 120 := by
  decide +kernel

end Verif.Double
