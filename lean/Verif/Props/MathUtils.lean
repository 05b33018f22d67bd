import Verif.Model.MathUtils
import Mathlib.Tactic.LinearCombination
import Mathlib.Tactic.Linarith
import Mathlib.Analysis.Real.Pi.Bounds
/-! C40: degree-based trigonometry and tolerance comparisons. -/
namespace Verif.MathUtils
open Classical Real

theorem remainder_eq_zero (x y : ℝ) (h : remainder x y = 0) : ∃ k : ℤ, x = y * k :=
  ⟨round (x / y), by unfold remainder at h; linarith⟩

theorem cos_shift (x : ℝ) : cos (x / 180 * π) = cos (fmod |x| 360 / 180 * π) := by
  rw [← cos_abs, abs_mul, abs_of_pos pi_pos, abs_div, abs_of_pos (by norm_num : (0:ℝ) < 180)]
  unfold fmod
  have : (|x| - 360 * (⌊|x| / 360⌋ : ℝ)) / 180 * π = |x| / 180 * π - (⌊|x| / 360⌋ : ℝ) * (2 * π) := by
    ring
  rw [this, cos_sub_int_mul_two_pi]

theorem fmod_range (x : ℝ) : 0 ≤ fmod x 360 ∧ fmod x 360 < 360 := by
  unfold fmod
  have h1 := Int.floor_le (x / 360)
  have h2 := Int.lt_floor_add_one (x / 360)
  constructor <;> linarith

theorem xp_eq_round (x : ℝ) (h : remainder x 60 = 0 ∨ remainder x 90 = 0) : x = (round x : ℤ) := by
  rcases h with h | h
  · obtain ⟨k, hk⟩ := remainder_eq_zero _ _ h
    have : x = ((60 * k : ℤ) : ℝ) := by rw [hk]; push_cast; ring
    rw [this, round_intCast]
  · obtain ⟨k, hk⟩ := remainder_eq_zero _ _ h
    have : x = ((90 * k : ℤ) : ℝ) := by rw [hk]; push_cast; ring
    rw [this, round_intCast]

theorem cos_two_thirds : cos (120 / 180 * π) = -1 / 2 := by
  have : (120 / 180 * π : ℝ) = π - π / 3 := by ring
  rw [this, cos_pi_sub, cos_pi_div_three]; ring

/-- C40. `cosd` is the cosine of its argument in degrees, for every argument. -/
theorem cosd_eq_cos (x : ℝ) : cosd x = cos (x * π / 180) := by
  have e : x * π / 180 = x / 180 * π := by ring
  rw [e]
  unfold cosd
  simp only
  split
  · rename_i hr
    have hx := xp_eq_round _ hr
    have hc := cos_shift x
    have sub : ∀ k : ℤ, round (fmod |x| 360) = k → cos (x / 180 * π) = cos ((k : ℝ) / 180 * π) := by
      intro k hk; rw [hc, hx, hk]
    split
    · rename_i hk; rw [sub 0 hk]; simp
    · split
      · rename_i hk
        rcases hk with hk | hk
        · rw [sub 60 hk, ← cos_pi_div_three]; congr 1; push_cast; ring
        · rw [sub 300 hk, ← cos_pi_div_three, ← cos_neg, ← cos_add_two_pi]; congr 1; push_cast; ring
      · split
        · rename_i hk
          rcases hk with hk | hk
          · rw [sub 90 hk, ← cos_pi_div_two]; congr 1; push_cast; ring
          · rw [sub 270 hk, ← cos_pi_div_two, ← cos_neg, ← cos_add_two_pi]; congr 1; push_cast; ring
        · split
          · rename_i hk
            rcases hk with hk | hk
            · rw [sub 120 hk, ← cos_two_thirds]; congr 1
            · rw [sub 240 hk, ← cos_two_thirds, ← cos_neg, ← cos_add_two_pi]; congr 1; push_cast; ring
          · split
            · rename_i hk
              rw [sub 180 hk, ← cos_pi]; congr 1; push_cast; ring
            · rfl
  · rfl

/-- C40. `sind` is the sine of its argument in degrees, for every argument. -/
theorem sind_eq_sin (x : ℝ) : sind x = sin (x * π / 180) := by
  unfold sind
  rw [cosd_eq_cos, ← cos_pi_div_two_sub]
  congr 1; ring

/-- C40. The tabulated values: `cosd` and `sind` are exactly 0, ±1/2, ±1 at every multiple of 60
and 90 degrees, in whatever turn. -/
theorem cosd_exact (k : ℤ) : cosd (360 * k) = 1 ∧ cosd (60 + 360 * k) = 1 / 2 ∧
    cosd (90 + 360 * k) = 0 ∧ cosd (120 + 360 * k) = -1 / 2 ∧ cosd (180 + 360 * k) = -1 ∧
    sind (30 + 360 * k) = 1 / 2 ∧ sind (90 + 360 * k) = 1 ∧ sind (360 * k) = 0 := by
  have h : ∀ d : ℝ, cosd (d + 360 * k) = cos (d * π / 180) := by
    intro d
    rw [cosd_eq_cos]
    have : (d + 360 * k) * π / 180 = d * π / 180 + k * (2 * π) := by ring
    rw [this, cos_add_int_mul_two_pi]
  have hs : ∀ d : ℝ, sind (d + 360 * k) = sin (d * π / 180) := by
    intro d
    rw [sind_eq_sin]
    have : (d + 360 * k) * π / 180 = d * π / 180 + k * (2 * π) := by ring
    rw [this, sin_add_int_mul_two_pi]
  refine ⟨?_, ?_, ?_, ?_, ?_, ?_, ?_, ?_⟩
  · have := h 0; simpa using this
  · rw [h, ← cos_pi_div_three]; congr 1; ring
  · rw [h, ← cos_pi_div_two]; congr 1; ring
  · rw [h, ← cos_two_thirds]; congr 1; ring
  · rw [h, ← cos_pi]; congr 1; ring
  · rw [hs, ← sin_pi_div_six]; congr 1; ring
  · rw [hs, ← sin_pi_div_two]; congr 1; ring
  · have := hs 0; simpa using this

theorem half_eq_round (x : ℝ) (h : remainder x (1 / 2) = 0) :
    x = (round (x / (1 / 2)) : ℤ) / 2 := by
  unfold remainder at h
  linarith

/-- C40. `acosd` is the arccosine in degrees for every argument in [-1, 1]. -/
theorem acosd_eq_arccos (x : ℝ) : acosd x = arccos x * 180 / π := by
  have e : arccos x * 180 / π = arccos x / π * 180 := by ring
  rw [e]
  unfold acosd
  simp only
  have hp := pi_ne_zero
  split
  · rename_i hr
    have hx := half_eq_round x hr
    have sub : ∀ k : ℤ, round (x / (1 / 2)) = k → x = (k : ℝ) / 2 := by
      intro k hk; rw [← hk]; exact hx
    have val : ∀ (y t : ℝ), 0 ≤ t → t ≤ π → cos t = y → x = y → arccos x / π * 180 = t / π * 180 := by
      intro y t h0 h1 h2 h3
      rw [h3, ← h2, arccos_cos h0 h1]
    have hpi := pi_pos
    split
    · rename_i hk
      rw [val 0 (π / 2) (by linarith) (by linarith) cos_pi_div_two (by rw [sub 0 hk]; simp)]
      field_simp; norm_num
    · split
      · rename_i hk
        rw [val (1 / 2) (π / 3) (by linarith) (by linarith) cos_pi_div_three (by rw [sub 1 hk]; simp)]
        field_simp; norm_num
      · split
        · rename_i hk
          rw [val (-1 / 2) (120 / 180 * π) (by linarith) (by linarith) cos_two_thirds
            (by rw [sub (-1) hk]; push_cast; ring)]
          field_simp
        · split
          · rename_i hk
            rw [val 1 0 le_rfl (by linarith) cos_zero (by rw [sub 2 hk]; push_cast; ring)]
            simp
          · split
            · rename_i hk
              rw [val (-1) π (by linarith) le_rfl cos_pi (by rw [sub (-2) hk]; push_cast; ring)]
              field_simp
            · rfl
  · rfl

/-- C40 (violated). `asind` is not the arcsine: it is right at the five tabulated arguments ... -/
theorem asind_tabulated_partial (k : ℤ) (hk : k = -2 ∨ k = -1 ∨ k = 0 ∨ k = 1 ∨ k = 2) :
    asind ((k : ℝ) / 2) = arcsin ((k : ℝ) / 2) * 180 / π := by
  have hr : remainder ((k : ℝ) / 2) (1 / 2) = 0 := by
    unfold remainder
    have : (k : ℝ) / 2 / (1 / 2) = (k : ℤ) := by ring
    rw [this, round_intCast]; ring
  have hk' : round ((k : ℝ) / 2 / (1 / 2)) = k := by
    have : (k : ℝ) / 2 / (1 / 2) = (k : ℤ) := by ring
    rw [this, round_intCast]
  have hp := pi_ne_zero
  unfold asind
  simp only [hr, hk', if_true]
  have hpi := pi_pos
  have val : ∀ (y t : ℝ), -(π / 2) ≤ t → t ≤ π / 2 → sin t = y → arcsin y * 180 / π = t * 180 / π := by
    intro y t h0 h1 h2
    rw [← h2, arcsin_sin h0 h1]
  rcases hk with rfl | rfl | rfl | rfl | rfl
  · have := val (-1) (-(π / 2)) le_rfl (by linarith) (by rw [sin_neg, sin_pi_div_two])
    norm_num at this ⊢; field_simp; norm_num
  · have := val (-1 / 2) (-(π / 6)) (by linarith) (by linarith) (by rw [sin_neg, sin_pi_div_six]; ring)
    have e : (((-1 : ℤ) : ℝ) / 2) = -1 / 2 := by push_cast; ring
    rw [e, this]; norm_num; field_simp; norm_num
  · norm_num
  · have := val (1 / 2) (π / 6) (by linarith) (by linarith) (by rw [sin_pi_div_six])
    have e : (((1 : ℤ) : ℝ) / 2) = 1 / 2 := by push_cast; ring
    rw [e, this]; norm_num; field_simp; norm_num
  · norm_num; field_simp; norm_num

/-- ... and everywhere else in [-1, 1] it returns the arccosine. -/
theorem asind_elsewhere_is_acosd (x : ℝ) (hx : ∀ k : ℤ, x ≠ (k : ℝ) / 2) :
    asind x = arccos x * 180 / π := by
  have : ¬ remainder x (1 / 2) = 0 := fun h => hx _ (half_eq_round x h)
  unfold asind
  simp only [this, if_false]; ring

/-- Witness: `asind(1/4)` is wrong (it exceeds 45 degrees although sin 45° > 1/4). -/
theorem asind_wrong : asind (1 / 4) ≠ arcsin (1 / 4) * 180 / π := by
  rw [asind_elsewhere_is_acosd]
  · intro h
    have hp := pi_pos
    have h1 : arccos (1 / 4) = arcsin (1 / 4) := by
      field_simp at h; linarith
    rw [arccos_eq_pi_div_two_sub_arcsin] at h1
    have h2 : arcsin (1 / 4) = π / 4 := by linarith
    have h3 : sin (π / 4) = 1 / 4 := by rw [← h2, sin_arcsin] <;> norm_num
    rw [sin_pi_div_four] at h3
    have h4 : √2 * √2 = 2 := Real.mul_self_sqrt (by norm_num)
    have h5 : √2 = 1 / 2 := by linarith
    rw [h5] at h4; norm_num at h4
  · intro k hk
    have : (1 : ℝ) = 2 * k := by linarith
    have h2 : (1 : ℤ) = 2 * k := by exact_mod_cast this
    omega

/-- C40. Of `eps_eq`, `eps_lt` and `eps_gt` exactly one holds, for every pair and every
non-negative tolerance. -/
theorem eps_trichotomy (x y eps : ℝ) (he : 0 ≤ eps) :
    (eps_eq x y eps ∨ eps_lt x y eps ∨ eps_gt x y eps) ∧
    ¬ (eps_eq x y eps ∧ eps_lt x y eps) ∧ ¬ (eps_eq x y eps ∧ eps_gt x y eps) ∧
    ¬ (eps_lt x y eps ∧ eps_gt x y eps) := by
  unfold eps_eq eps_lt eps_gt
  rw [abs_le]
  refine ⟨?_, ?_, ?_, ?_⟩
  · by_cases h1 : x < y - eps
    · exact Or.inr (Or.inl h1)
    · by_cases h2 : x > y + eps
      · exact Or.inr (Or.inr h2)
      · refine Or.inl ⟨by linarith, by linarith⟩
  · rintro ⟨⟨h1, h2⟩, h3⟩; linarith
  · rintro ⟨⟨h1, h2⟩, h3⟩; linarith
  · rintro ⟨h1, h2⟩; linarith

/-- C40. `eps_eq` is symmetric, `eps_lt` and `eps_gt` mirror each other, `eps_lt` is transitive and
irreflexive. -/
theorem eps_laws (x y z eps : ℝ) (he : 0 ≤ eps) :
    (eps_eq x y eps ↔ eps_eq y x eps) ∧ (eps_lt x y eps ↔ eps_gt y x eps) ∧
    ¬ eps_lt x x eps ∧ (eps_lt x y eps → eps_lt y z eps → eps_lt x z eps) := by
  unfold eps_eq eps_lt eps_gt
  refine ⟨by rw [abs_sub_comm], ⟨fun h => by linarith, fun h => by linarith⟩, by simpa using he,
    fun h1 h2 => by linarith⟩

/-- The tolerance order is not a strict weak order: being within tolerance is not transitive, for
any positive tolerance (so `EpsilonLess` is no valid comparator for general data). -/
theorem eps_eq_not_transitive (eps : ℝ) (he : 0 < eps) :
    ∃ x y z, eps_eq x y eps ∧ eps_eq y z eps ∧ ¬ eps_eq x z eps := by
  refine ⟨0, eps, 2 * eps, ?_, ?_, ?_⟩ <;> unfold eps_eq
  · rw [zero_sub, abs_neg, abs_of_pos he]
  · have : eps - 2 * eps = -eps := by ring
    rw [this, abs_neg, abs_of_pos he]
  · rw [zero_sub, abs_neg, abs_of_pos (by linarith)]; linarith

/-- Sequences that are equal within the tolerance are never ordered by `EpsilonLess`. -/
theorem seqEqual_not_less (eps : ℝ) (he : 0 ≤ eps) (u v : List ℝ) (h : seqEqual eps u v) :
    ¬ seqLess eps u v ∧ ¬ seqLess eps v u := by
  induction u generalizing v with
  | nil => cases v <;> simp_all [seqEqual, seqLess]
  | cons x xs ih =>
    cases v with
    | nil => simp [seqEqual] at h
    | cons y ys =>
      obtain ⟨h1, h2⟩ := h
      have hi := ih ys h2
      have t1 := eps_trichotomy x y eps he
      have hyx : ¬ eps_lt y x eps := by
        intro hc
        exact t1.2.2.1 ⟨h1, (by unfold eps_gt; unfold eps_lt at hc; linarith)⟩
      have hxy : ¬ eps_lt x y eps := fun hc => t1.2.1 ⟨h1, hc⟩
      exact ⟨by rintro (h | h); exacts [hxy h, hi.1 h.2], by rintro (h | h); exacts [hyx h, hi.2 h.2]⟩

/-- Sequences of any lengths are ordered one way or the other, or equal within tolerance. -/
theorem seqLess_total (eps : ℝ) (he : 0 ≤ eps) (u v : List ℝ) :
    seqLess eps u v ∨ seqLess eps v u ∨ seqEqual eps u v := by
  induction u generalizing v with
  | nil => cases v <;> simp [seqEqual, seqLess]
  | cons x xs ih =>
    cases v with
    | nil => simp [seqLess]
    | cons y ys =>
      have hi := ih ys
      have t1 := eps_trichotomy x y eps he
      have hm : eps_gt x y eps ↔ eps_lt y x eps := by
        unfold eps_gt eps_lt; constructor <;> intro h <;> linarith
      rcases t1.1 with h | h | h
      · have h1 : ¬ eps_lt x y eps := fun hc => t1.2.1 ⟨h, hc⟩
        have h2 : ¬ eps_lt y x eps := fun hc => t1.2.2.1 ⟨h, hm.2 hc⟩
        rcases hi with g | g | g
        · exact Or.inl (Or.inr ⟨h2, g⟩)
        · exact Or.inr (Or.inl (Or.inr ⟨h1, g⟩))
        · exact Or.inr (Or.inr ⟨h, g⟩)
      · exact Or.inl (Or.inl h)
      · exact Or.inr (Or.inl (Or.inl (hm.1 h)))

/-- `EpsilonEqual` on sequences: the same length and every pair of entries within tolerance. -/
theorem seqEqual_iff (eps : ℝ) (u v : List ℝ) : seqEqual eps u v ↔
    u.length = v.length ∧ ∀ (k : ℕ) (x y : ℝ), u[k]? = some x → v[k]? = some y → |x - y| ≤ eps := by
  induction u generalizing v with
  | nil => cases v <;> simp [seqEqual]
  | cons x xs ih =>
    cases v with
    | nil => simp [seqEqual]
    | cons y ys =>
      simp only [seqEqual, ih ys, eps_eq, List.length_cons, Nat.add_right_cancel_iff]
      constructor
      · rintro ⟨h1, h2, h3⟩
        refine ⟨h2, fun k a b ha hb => ?_⟩
        cases k with
        | zero => simp at ha hb; rw [← ha, ← hb]; exact h1
        | succ k => exact h3 k a b (by simpa using ha) (by simpa using hb)
      · rintro ⟨h2, h3⟩
        exact ⟨h3 0 x y rfl rfl, h2, fun k a b ha hb => h3 (k + 1) a b (by simpa using ha) (by simpa using hb)⟩

/-- `EpsilonLess` on sequences: the first pair of entries that differ by more than the tolerance decides, and when
there is none the shorter sequence is less. -/
theorem seqLess_iff (eps : ℝ) (u v : List ℝ) : seqLess eps u v ↔
    ∃ k, (∀ i x y, i < k → u[i]? = some x → v[i]? = some y → |x - y| ≤ eps) ∧ k ≤ u.length ∧ k < v.length ∧
      ∀ x y, u[k]? = some x → v[k]? = some y → x < y - eps := by
  induction u generalizing v with
  | nil =>
    cases v with
    | nil => simp [seqLess]
    | cons y ys => simp only [seqLess, true_iff]; exact ⟨0, by simp, by simp, by simp, by simp⟩
  | cons x xs ih =>
    cases v with
    | nil => simp [seqLess]
    | cons y ys =>
      simp only [seqLess, ih ys, eps_lt]
      constructor
      · rintro (h | ⟨h1, k, hk, hk1, hk2, hk3⟩)
        · exact ⟨0, by simp, by simp, by simp, fun a b ha hb => by simp at ha hb; rw [← ha, ← hb]; exact h⟩
        · by_cases h : x < y - eps
          · exact ⟨0, by simp, by simp, by simp, fun a b ha hb => by simp at ha hb; rw [← ha, ← hb]; exact h⟩
          · refine ⟨k + 1, ?_, by simpa using hk1, by simpa using hk2, fun a b ha hb =>
              hk3 a b (by simpa using ha) (by simpa using hb)⟩
            intro i a b hi ha hb
            cases i with
            | zero =>
              simp at ha hb
              rw [← ha, ← hb, abs_le]
              constructor <;> linarith
            | succ i => exact hk i a b (by omega) (by simpa using ha) (by simpa using hb)
      · rintro ⟨k, hk, hk1, hk2, hk3⟩
        cases k with
        | zero => exact Or.inl (hk3 x y rfl rfl)
        | succ k =>
          have h0 := abs_le.1 (hk 0 x y (by omega) rfl rfl)
          refine Or.inr ⟨by linarith [h0.2], k, ?_, by simpa using hk1, by simpa using hk2, fun a b ha hb =>
            hk3 a b (by simpa using ha) (by simpa using hb)⟩
          intro i a b hi ha hb
          exact hk (i + 1) a b (by omega) (by simpa using ha) (by simpa using hb)

/-- A sequence is never both less and greater. -/
theorem seqLess_asymm (eps : ℝ) (he : 0 ≤ eps) (u v : List ℝ) (h : seqLess eps u v) : ¬ seqLess eps v u := by
  induction u generalizing v with
  | nil => simp [seqLess]
  | cons x xs ih =>
    cases v with
    | nil => simp [seqLess] at h
    | cons y ys =>
      rintro (g | ⟨g1, g2⟩) <;> rcases h with h | ⟨h1, h2⟩
      · unfold eps_lt at g h; linarith
      · exact h1 g
      · exact g1 h
      · exact ih ys h2 g2

example : seqLess 1 [1, 2] [1 / 2, 5 / 2, -3] ∧ ¬ seqLess 1 [1, 2] [1 / 2, 5 / 2] := by
  simp [seqLess, eps_lt]; norm_num

example : cosd (-1020) = 1 / 2 := by
  have := (cosd_exact (-3)).2.1
  norm_num at this; exact this
example : eps_eq 1 (1 + 1 / 2) 1 ∧ eps_lt 1 3 1 ∧ eps_gt 3 1 1 := by
  unfold eps_eq eps_lt eps_gt; norm_num [abs_le]
example : seqLess 0 [1, 2] [1, 3] ∧ seqEqual 1 [1, 2] [1, 3] := by
  simp [seqLess, seqEqual, eps_lt, eps_eq]; norm_num

end Verif.MathUtils
