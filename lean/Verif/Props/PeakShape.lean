import Verif.Model.PeakShape
import Verif.Props.PDFGrid
import Mathlib.MeasureTheory.Integral.IntervalIntegral.FundThmCalculus
import Mathlib.Tactic.Positivity
import Mathlib.Tactic.NormNum
/-!
C36 (profiles): Gaussian and cropped Gaussian peak profiles; their use by the PDF calculator.
-/
namespace Verif.Peak
open Verif.R3 MeasureTheory

/-! ### The precision of a profile -/

/-- A state that calls of `setPrecision` can reach. -/
def Gauss.Reach (g : Gauss) : Prop := ∃ l : List ℝ, g = l.foldl Gauss.setPrecision Gauss.new

/-- The bound that belongs to a precision: the distance in units of FWHM at which a Gaussian falls to `p` of
its maximum. -/
noncomputable def bound (p : ℝ) : ℝ := if p < 1 then Real.sqrt (-Real.log p / (4 * Real.log 2)) else 0

theorem set_spec (g : Gauss) (eps : ℝ) :
    (g.setPrecision eps).precision = max eps dblEps ∧
    (g.setPrecision eps).half = bound (max eps dblEps) ∧
    (g.setPrecision eps).clicks = if g.precision = max eps dblEps then g.clicks else g.clicks + 1 := by
  unfold Gauss.setPrecision Gauss.basePrecision bound
  by_cases h : max eps dblEps < 1
  · simp only [if_pos h, ne_eq, ite_not]; exact ⟨trivial, trivial, trivial⟩
  · simp only [if_neg h, ne_eq, ite_not]; exact ⟨trivial, trivial, trivial⟩

theorem dblEps_pos : 0 < dblEps := by unfold dblEps; positivity

/-- C36. After every history of `setPrecision` calls the precision is the last value raised to at least
`DOUBLE_EPS`, the bounds are those of this precision, and a call clicks the ticker exactly when it changes the
precision (and so the profile). -/
theorem precision_history (l : List ℝ) (eps : ℝ) :
    let g := l.foldl Gauss.setPrecision Gauss.new
    (g.setPrecision eps).precision = max eps dblEps ∧ g.half = bound g.precision ∧ dblEps ≤ g.precision ∧
    (g.setPrecision eps).clicks = (if g.precision = (g.setPrecision eps).precision then g.clicks else g.clicks + 1) ∧
    (g.precision = (g.setPrecision eps).precision → g.setPrecision eps = g) := by
  intro g
  have hg : g.half = bound g.precision ∧ dblEps ≤ g.precision := by
    have key : ∀ (l : List ℝ) (g : Gauss), g.half = bound g.precision ∧ dblEps ≤ g.precision →
        (l.foldl Gauss.setPrecision g).half = bound (l.foldl Gauss.setPrecision g).precision ∧
        dblEps ≤ (l.foldl Gauss.setPrecision g).precision := by
      intro l
      induction l with
      | nil => exact fun g h => h
      | cons a l ih =>
        intro g _
        refine ih _ ?_
        obtain ⟨h1, h2, _⟩ := set_spec g a
        rw [h2, h1]
        exact ⟨rfl, le_max_right _ _⟩
    refine key l _ ?_
    obtain ⟨h1, h2, _⟩ := set_spec ⟨0, 0, 0⟩ dblEps
    unfold Gauss.new
    rw [h2, h1]
    exact ⟨rfl, le_max_right _ _⟩
  obtain ⟨h1, h2, h3⟩ := set_spec g eps
  refine ⟨h1, hg.1, hg.2, ?_, ?_⟩
  · rw [h1]; exact h3
  · intro he
    have a1 : (g.setPrecision eps).precision = g.precision := he.symm
    have a2 : (g.setPrecision eps).half = g.half := by rw [h2, hg.1, ← h1, he]
    have a3 : (g.setPrecision eps).clicks = g.clicks := by rw [h3, if_pos (he.trans h1)]
    cases hh : g.setPrecision eps
    cases hk : g
    rw [hh, hk] at a1 a2 a3
    simp only at a1 a2 a3
    rw [a1, a2, a3]

theorem reach_spec (g : Gauss) (h : g.Reach) : g.half = bound g.precision ∧ 0 < g.precision := by
  obtain ⟨l, rfl⟩ := h
  have := precision_history l 0
  exact ⟨this.2.1, lt_of_lt_of_le dblEps_pos this.2.2.1⟩

theorem bound_nonneg (p : ℝ) : 0 ≤ bound p := by
  unfold bound; split
  · exact Real.sqrt_nonneg _
  · exact le_rfl

theorem log2_pos : 0 < Real.log 2 := Real.log_pos (by norm_num)

theorem bound_sq (p : ℝ) (h0 : 0 < p) (h1 : p < 1) : 4 * Real.log 2 * bound p ^ 2 = -Real.log p := by
  unfold bound
  rw [if_pos h1, Real.sq_sqrt]
  · have := log2_pos.ne'
    field_simp
  · have := Real.log_neg h0 h1
    have := log2_pos
    apply div_nonneg <;> linarith

/-! ### The Gaussian profile -/

theorem gauss_eq (x w : ℝ) (hw : 0 < w) : gaussY x w =
    2 * Real.sqrt (Real.log 2 / Real.pi) / w * Real.exp (-(4 * Real.log 2 / w ^ 2) * x ^ 2) := by
  unfold gaussY
  rw [if_neg (not_le.2 hw)]
  simp only
  congr 2
  field_simp

theorem gauss_zero (w : ℝ) (hw : 0 < w) : gaussY 0 w = 2 * Real.sqrt (Real.log 2 / Real.pi) / w := by
  rw [gauss_eq 0 w hw]; simp

theorem gauss_zero_pos (w : ℝ) (hw : 0 < w) : 0 < gaussY 0 w := by
  rw [gauss_zero w hw]
  have : 0 < Real.sqrt (Real.log 2 / Real.pi) := Real.sqrt_pos.2 (div_pos log2_pos Real.pi_pos)
  positivity

theorem gauss_rel (x w : ℝ) (hw : 0 < w) : gaussY x w = gaussY 0 w * Real.exp (-4 * Real.log 2 * (x / w) ^ 2) := by
  rw [gauss_zero w hw]
  unfold gaussY
  rw [if_neg (not_le.2 hw)]
  simp only
  congr 2
  ring

/-- C36. The Gaussian profile is even, non-negative and falls away from its maximum at zero; `fwhm` is its
full width at half maximum and its area is one.  A non-positive width gives the zero profile. -/
theorem gauss_spec (w : ℝ) (hw : 0 < w) :
    (∀ x, gaussY (-x) w = gaussY x w) ∧ (∀ x, 0 < gaussY x w) ∧
    (∀ x y, |x| ≤ |y| → gaussY y w ≤ gaussY x w) ∧
    gaussY (w / 2) w = gaussY 0 w / 2 ∧ (∫ x, gaussY x w) = 1 := by
  refine ⟨?_, ?_, ?_, ?_, ?_⟩
  · intro x; rw [gauss_eq _ _ hw, gauss_eq _ _ hw, neg_sq]
  · intro x; rw [gauss_rel x w hw]; exact mul_pos (gauss_zero_pos w hw) (Real.exp_pos _)
  · intro x y hxy
    rw [gauss_rel x w hw, gauss_rel y w hw]
    refine mul_le_mul_of_nonneg_left (Real.exp_le_exp.2 ?_) (gauss_zero_pos w hw).le
    have h1 : (x / w) ^ 2 ≤ (y / w) ^ 2 := by
      rw [div_pow, div_pow]
      exact div_le_div_of_nonneg_right (sq_le_sq.2 hxy) (by positivity)
    have := log2_pos
    nlinarith
  · rw [gauss_rel _ w hw, show (w / 2 / w) = 1 / 2 by field_simp,
      show -4 * Real.log 2 * (1 / 2 : ℝ) ^ 2 = -Real.log 2 by ring, Real.exp_neg, Real.exp_log (by norm_num)]
    ring
  · have e : (fun x => gaussY x w) = fun x => 2 * Real.sqrt (Real.log 2 / Real.pi) / w *
        Real.exp (-(4 * Real.log 2 / w ^ 2) * x ^ 2) := funext fun x => gauss_eq x w hw
    rw [e, integral_const_mul, integral_gaussian]
    have hl := log2_pos
    have hp := Real.pi_pos
    have : Real.pi / (4 * Real.log 2 / w ^ 2) = (w / 2) ^ 2 * (Real.pi / Real.log 2) := by field_simp; norm_num
    rw [this, Real.sqrt_mul (by positivity), Real.sqrt_sq (by positivity)]
    have h2 : Real.sqrt (Real.log 2 / Real.pi) * Real.sqrt (Real.pi / Real.log 2) = 1 := by
      rw [← Real.sqrt_mul (by positivity)]
      rw [show Real.log 2 / Real.pi * (Real.pi / Real.log 2) = 1 by field_simp, Real.sqrt_one]
    calc 2 * √(Real.log 2 / Real.pi) / w * (w / 2 * √(Real.pi / Real.log 2))
        = (√(Real.log 2 / Real.pi) * √(Real.pi / Real.log 2)) * (w / w) := by ring
      _ = 1 := by rw [h2, div_self hw.ne', mul_one]

theorem gauss_nonpos (x w : ℝ) (hw : w ≤ 0) : gaussY x w = 0 := if_pos hw

/-- C36. The bounds of the Gaussian profile are symmetric and exact: the points strictly within the bounds are
those at which the profile is above `precision` times its maximum. -/
theorem gauss_bounds (g : Gauss) (hg : g.Reach) (w : ℝ) (hw : 0 < w) :
    g.lo w = -g.hi w ∧ 0 ≤ g.hi w ∧
    (g.precision < 1 → ∀ x, g.hi w ≤ |x| ↔ gaussY x w ≤ g.precision * gaussY 0 w) ∧
    (1 ≤ g.precision → g.hi w = 0) := by
  obtain ⟨hh, hp⟩ := reach_spec g hg
  have hhi : g.hi w = bound g.precision * w := by unfold Gauss.hi; rw [if_neg (not_le.2 hw), hh]
  refine ⟨by unfold Gauss.lo; ring, ?_, ?_, ?_⟩
  · rw [hhi]; exact mul_nonneg (bound_nonneg _) hw.le
  · intro h1 x
    rw [hhi, gauss_rel x w hw, mul_comm g.precision, mul_le_mul_iff_right₀ (gauss_zero_pos w hw)]
    have hb := bound_sq g.precision hp h1
    have e : g.precision = Real.exp (-(4 * Real.log 2 * bound g.precision ^ 2)) := by
      rw [hb, neg_neg, Real.exp_log hp]
    rw [show (Real.exp (-4 * Real.log 2 * (x / w) ^ 2) ≤ g.precision) ↔
      Real.exp (-4 * Real.log 2 * (x / w) ^ 2) ≤ Real.exp (-(4 * Real.log 2 * bound g.precision ^ 2)) by rw [← e]]
    rw [Real.exp_le_exp]
    have hl := log2_pos
    have : (-4 * Real.log 2 * (x / w) ^ 2 ≤ -(4 * Real.log 2 * bound g.precision ^ 2)) ↔
        bound g.precision ^ 2 ≤ (x / w) ^ 2 := by
      constructor
      · intro h; nlinarith
      · intro h; nlinarith
    rw [this, sq_le_sq, abs_of_nonneg (bound_nonneg _), abs_div, abs_of_pos hw, le_div_iff₀ hw]
  · intro h1
    rw [hhi]; unfold bound; rw [if_neg (not_lt.2 h1), zero_mul]

/-- Bounds do not shrink when the width grows. -/
theorem hi_mono (g : Gauss) (hg : g.Reach) {v w : ℝ} (h : v ≤ w) : g.hi v ≤ g.hi w ∧ 0 ≤ g.hi v := by
  obtain ⟨hh, _⟩ := reach_spec g hg
  have hb := bound_nonneg g.precision
  unfold Gauss.hi
  rw [hh]
  by_cases h1 : v ≤ 0
  · rw [if_pos h1]
    refine ⟨?_, le_rfl⟩
    split
    · exact le_rfl
    · rename_i h2; exact mul_nonneg hb (not_le.1 h2).le
  · rw [if_neg h1, if_neg (fun h2 => h1 (h.trans h2))]
    exact ⟨mul_le_mul_of_nonneg_left h hb, mul_nonneg hb (not_le.1 h1).le⟩

/-! ### The cropped profile -/

/-- A state of a cropped profile that calls of `setPrecision` can reach. -/
def Cropped.Reach (c : Cropped) : Prop := ∃ l : List ℝ, c = l.foldl Cropped.setPrecision Cropped.new

theorem cropped_reach (c : Cropped) (h : c.Reach) : c.g.half = bound c.g.precision ∧ 0 < c.g.precision ∧
    c.scale = if c.g.precision < 1 then 1 / erf (Real.sqrt (-Real.log c.g.precision)) else 1 := by
  have one : ∀ (c : Cropped) (eps : ℝ),
      (c.setPrecision eps).g.half = bound (c.setPrecision eps).g.precision ∧ 0 < (c.setPrecision eps).g.precision ∧
      (c.setPrecision eps).scale = if (c.setPrecision eps).g.precision < 1 then
        1 / erf (Real.sqrt (-Real.log (c.setPrecision eps).g.precision)) else 1 := by
    intro c eps
    obtain ⟨h1, h2, _⟩ := set_spec c.g eps
    unfold Cropped.setPrecision
    by_cases hp : (c.g.setPrecision eps).precision < 1
    · simp only [if_pos hp]
      refine ⟨by rw [h2, h1], ?_, trivial⟩
      rw [h1]; exact lt_of_lt_of_le dblEps_pos (le_max_right _ _)
    · simp only [if_neg hp]
      refine ⟨by rw [h2, h1], ?_, trivial⟩
      rw [h1]; exact lt_of_lt_of_le dblEps_pos (le_max_right _ _)
  obtain ⟨l, rfl⟩ := h
  rcases l.eq_nil_or_concat with rfl | ⟨l', a, rfl⟩
  · exact one _ _
  · rw [List.concat_eq_append, List.foldl_append]
    exact one _ _

theorem erf_pos (z : ℝ) (hz : 0 < z) : 0 < erf z := by
  unfold erf
  have h : 0 < ∫ t in (0 : ℝ)..z, Real.exp (-t ^ 2) :=
    intervalIntegral.intervalIntegral_pos_of_pos (Continuous.intervalIntegrable (by fun_prop) _ _)
      (fun x => Real.exp_pos _) hz
  have := Real.sqrt_pos.2 Real.pi_pos
  positivity

/-- The area of the Gaussian profile between symmetric bounds, through the error function. -/
theorem gauss_area (b w : ℝ) (hw : 0 < w) :
    (∫ x in (-(b * w))..(b * w), gaussY x w) = erf (2 * Real.sqrt (Real.log 2) * b) := by
  have hl := log2_pos
  have hs := Real.sqrt_pos.2 hl
  set k := 2 * Real.sqrt (Real.log 2) / w with hk
  have hk0 : k ≠ 0 := by rw [hk]; positivity
  have e : (fun x => gaussY x w) = fun x => 2 * Real.sqrt (Real.log 2 / Real.pi) / w * Real.exp (-(k * x) ^ 2) := by
    funext x
    rw [gauss_eq x w hw]
    congr 2
    rw [hk, mul_pow, div_pow, mul_pow, Real.sq_sqrt hl.le]
    ring
  rw [e, intervalIntegral.integral_const_mul,
    intervalIntegral.integral_comp_mul_left (fun t => Real.exp (-t ^ 2)) hk0, smul_eq_mul]
  have hkb : k * (b * w) = 2 * Real.sqrt (Real.log 2) * b := by rw [hk]; field_simp
  rw [mul_neg, hkb]
  generalize 2 * Real.sqrt (Real.log 2) * b = z
  have hint : ∀ a b : ℝ, IntervalIntegrable (fun t : ℝ => Real.exp (-t ^ 2)) volume a b := fun a b =>
    Continuous.intervalIntegrable (by fun_prop) _ _
  have hsym : (∫ t in (-z)..0, Real.exp (-t ^ 2)) = ∫ t in (0 : ℝ)..z, Real.exp (-t ^ 2) := by
    have := intervalIntegral.integral_comp_neg (a := 0) (b := z) (fun t => Real.exp (-t ^ 2))
    simp only [neg_sq, neg_zero] at this
    exact this.symm
  rw [← intervalIntegral.integral_add_adjacent_intervals (hint (-z) 0) (hint 0 z), hsym]
  unfold erf
  generalize (∫ t in (0 : ℝ)..z, Real.exp (-t ^ 2)) = I
  rw [Real.sqrt_div hl.le, hk]
  have := (Real.sqrt_pos.2 Real.pi_pos).ne'
  field_simp
  ring

/-- C36. The cropped profile is never NaN for a positive width, vanishes exactly outside of its bounds, is
there a fixed multiple of the Gaussian, is even and has area one. -/
theorem cropped_spec (c : Cropped) (hc : c.Reach) (w : ℝ) (hw : 0 < w) :
    (∀ x, c.g.hi w ≤ |x| → c.y x w = some 0) ∧
    (∀ x, |x| < c.g.hi w → c.y x w = some (c.scale * gaussY x w)) ∧
    (∀ x, c.y (-x) w = c.y x w) ∧
    (c.g.precision < 1 → 0 < c.scale ∧ (∫ x in (c.g.lo w)..(c.g.hi w), (c.y x w).getD 0) = 1) := by
  obtain ⟨hh, hp, hs⟩ := cropped_reach c hc
  have hhi : c.g.hi w = c.g.half * w := by unfold Gauss.hi; rw [if_neg (not_le.2 hw)]
  have hrel : ∀ x, |x / w| ≥ c.g.half ↔ c.g.hi w ≤ |x| := by
    intro x
    rw [abs_div, abs_of_pos hw, hhi, ge_iff_le, le_div_iff₀ hw]
  have hout : ∀ x, c.g.hi w ≤ |x| → c.y x w = some 0 := by
    intro x hx
    unfold Cropped.y
    rw [if_neg hw.ne']
    simp only
    rw [if_pos ((hrel x).2 hx)]
  have hin : ∀ x, |x| < c.g.hi w → c.y x w = some (c.scale * gaussY x w) := by
    intro x hx
    unfold Cropped.y gaussY
    rw [if_neg hw.ne']
    simp only
    rw [if_neg (fun h => absurd ((hrel x).1 h) (not_le.2 hx)), if_neg (not_le.2 hw)]
    congr 1
    ring
  refine ⟨hout, hin, ?_, ?_⟩
  · intro x
    rcases le_or_gt (c.g.hi w) |x| with h | h
    · rw [hout x h, hout (-x) (by rwa [abs_neg])]
    · rw [hin x h, hin (-x) (by rwa [abs_neg]), (gauss_spec w hw).1]
  · intro h1
    have hz : 0 < Real.sqrt (-Real.log c.g.precision) :=
      Real.sqrt_pos.2 (neg_pos.2 (Real.log_neg hp h1))
    have he := erf_pos _ hz
    rw [if_pos h1] at hs
    refine ⟨by rw [hs]; positivity, ?_⟩
    have hb : 0 ≤ c.g.hi w := by rw [hhi, hh]; exact mul_nonneg (bound_nonneg _) hw.le
    have hlo : c.g.lo w = -(c.g.hi w) := by unfold Gauss.lo; ring
    rw [hlo]
    have hcong : (∫ x in (-(c.g.hi w))..(c.g.hi w), (c.y x w).getD 0) =
        ∫ x in (-(c.g.hi w))..(c.g.hi w), c.scale * gaussY x w := by
      apply intervalIntegral.integral_congr_Ioo_of_le (by linarith)
      intro x hx
      simp only
      rw [hin x (abs_lt.2 hx)]
      rfl
    rw [hcong, intervalIntegral.integral_const_mul, hhi, gauss_area _ w hw, hs]
    have : 2 * Real.sqrt (Real.log 2) * c.g.half = Real.sqrt (-Real.log c.g.precision) := by
      rw [hh, ← bound_sq _ hp h1, Real.sqrt_mul (by have := log2_pos; positivity), Real.sqrt_sq (bound_nonneg _),
        show (4 : ℝ) * Real.log 2 = 2 ^ 2 * Real.log 2 by norm_num, Real.sqrt_mul (by norm_num),
        Real.sqrt_sq (by norm_num)]
    rw [this]
    field_simp

/-- A defect: with zero width the cropped profile is NaN at the peak position, while the Gaussian profile is
zero.  (Peaks of zero width are reached with zero displacement parameters; the NaN enters the PDF when such a
bond length falls on a grid point.) -/
theorem cropped_nan_bug (c : Cropped) : c.y 0 0 = none ∧ gaussY 0 0 = 0 := by
  unfold Cropped.y gaussY
  simp

/-! ### Use by the PDF calculator -/

/-- C36, C47. With the Gaussian profile the bounds of all bonds that are no wider than `maxfwhm` are within the
extension that the calculator adds to its range. -/
theorem gauss_within (g : Gauss) (hg : g.Reach) (maxfwhm : ℝ) (ps : List (PDFGrid.Peak ℝ))
    (hw : ∀ pk ∈ ps, pk.fwhm ≤ maxfwhm) (hd : ∀ pk ∈ ps, 0 ≤ pk.dist) :
    PDFGrid.Within g.prof (extFromPeakTails g.lo g.hi maxfwhm) ps where
  lo := by
    intro pk hpk
    have h := hi_mono g hg (hw pk hpk)
    have : g.hi maxfwhm ≤ extFromPeakTails g.lo g.hi maxfwhm := (le_abs_self _).trans (le_max_right _ _)
    show -_ ≤ -1 * g.hi pk.fwhm
    linarith [h.1]
  hi := by
    intro pk hpk
    have h := hi_mono g hg (hw pk hpk)
    have : g.hi maxfwhm ≤ extFromPeakTails g.lo g.hi maxfwhm := (le_abs_self _).trans (le_max_right _ _)
    show g.hi pk.fwhm ≤ _
    linarith [h.1]
  pos := hd

/-- C36, C47, C48. The same for the cropped profile and positive widths; in addition the profile vanishes at
and beyond its bounds, so that nothing is lost. -/
theorem cropped_bounded (c : Cropped) (hc : c.Reach) (maxfwhm : ℝ) (ps : List (PDFGrid.Peak ℝ))
    (hw : ∀ pk ∈ ps, 0 < pk.fwhm ∧ pk.fwhm ≤ maxfwhm) (hd : ∀ pk ∈ ps, 0 ≤ pk.dist) :
    PDFGrid.Bounded c.prof (extFromPeakTails c.g.lo c.g.hi maxfwhm) ps := by
  have hm : ∀ pk ∈ ps, c.g.hi pk.fwhm ≤ c.g.hi maxfwhm ∧ 0 ≤ c.g.hi pk.fwhm := by
    intro pk hpk
    have hh : c.g.half = bound c.g.precision := (cropped_reach c hc).1
    have hb := bound_nonneg c.g.precision
    obtain ⟨h0, h1⟩ := hw pk hpk
    unfold Gauss.hi
    rw [if_neg (not_le.2 h0), if_neg (not_le.2 (h0.trans_le h1)), hh]
    exact ⟨mul_le_mul_of_nonneg_left h1 hb, mul_nonneg hb h0.le⟩
  have ht : c.g.hi maxfwhm ≤ extFromPeakTails c.g.lo c.g.hi maxfwhm := (le_abs_self _).trans (le_max_right _ _)
  refine ⟨?_, ?_, ?_, hd⟩
  · intro pk hpk
    show -_ ≤ -1 * c.g.hi pk.fwhm
    linarith [(hm pk hpk).1]
  · intro pk hpk
    show c.g.hi pk.fwhm ≤ _
    linarith [(hm pk hpk).1]
  · intro pk hpk x hx
    have hx' : c.g.hi pk.fwhm ≤ |x| := by
      rcases hx with h | h
      · have h' : x ≤ -1 * c.g.hi pk.fwhm := h
        exact le_abs.2 (Or.inr (by linarith))
      · exact le_abs.2 (Or.inl h)
    show (c.y x pk.fwhm).getD 0 = 0
    rw [(cropped_spec c hc pk.fwhm (hw pk hpk).1).1 x hx']
    rfl

/-- C47 for the Gaussian profile: at a step of the reported range the accumulated value differs from the sum
over all bonds of the structure by at most `precision` times the sum of the heights of the peaks. -/
theorem gauss_value_error (p : PDFGrid.Par ℝ) (ripples : ℝ) (g : Gauss) (hg : g.Reach) (h1 : g.precision < 1)
    (maxfwhm : ℝ) (ps : List (PDFGrid.Peak ℝ)) (hw : ∀ pk ∈ ps, 0 < pk.fwhm ∧ pk.fwhm ≤ maxfwhm)
    (hd : ∀ pk ∈ ps, 0 < pk.dist)
    (ok : PDFGrid.Ok p ripples (extFromPeakTails g.lo g.hi maxfwhm))
    (hfit : ripples + extFromPeakTails g.lo g.hi maxfwhm ≤ p.maxext) (n : ℤ)
    (l1 : (PDFGrid.rlimits p ripples (extFromPeakTails g.lo g.hi maxfwhm)).emin ≤ n)
    (l2 : n < (PDFGrid.rlimits p ripples (extFromPeakTails g.lo g.hi maxfwhm)).emax)
    (l3 : (PDFGrid.rlimits p ripples (extFromPeakTails g.lo g.hi maxfwhm)).clo = 0 ∨
      p.rmin - ripples + p.dr ≤ (n : ℝ) * p.dr) :
    |PDFGrid.at_ (PDFGrid.rlimits p ripples (extFromPeakTails g.lo g.hi maxfwhm)).clo
        (PDFGrid.evalPeaks g.prof p.dr (PDFGrid.rlimits p ripples (extFromPeakTails g.lo g.hi maxfwhm)) ps) n -
      PDFGrid.fullSum g.prof p.dr ps n| ≤
    g.precision * (ps.map fun pk => |pk.scale| * gaussY 0 pk.fwhm * |(n : ℝ) * p.dr / pk.dist|).sum := by
  refine (PDFGrid.value_error p ripples _ g.prof ps ok hfit
    (gauss_within g hg maxfwhm ps (fun pk h => (hw pk h).2) (fun pk h => (hd pk h).le)) n l1 l2 l3).trans ?_
  rw [← List.sum_map_mul_left]
  apply List.sum_le_sum
  intro pk hpk
  have hw' := (hw pk hpk).1
  have hpp := (reach_spec g hg).2
  have hnn : 0 ≤ g.precision * (|pk.scale| * gaussY 0 pk.fwhm * |(n : ℝ) * p.dr / pk.dist|) :=
    mul_nonneg hpp.le (mul_nonneg (mul_nonneg (abs_nonneg _) (gauss_zero_pos _ hw').le) (abs_nonneg _))
  by_cases hin : PDFGrid.inside g.prof p.dr pk n
  · rw [if_pos hin]; exact hnn
  · rw [if_neg hin]
    obtain ⟨b1, _, b3, _⟩ := gauss_bounds g hg pk.fwhm hw'
    have hout : g.hi pk.fwhm ≤ |(n : ℝ) * p.dr - pk.dist| := by
      by_contra hc
      rw [not_le, abs_lt] at hc
      apply hin
      refine ⟨?_, hc.2⟩
      show g.lo pk.fwhm < _
      rw [b1]; exact hc.1
    have hle := (b3 h1 _).1 hout
    have e : PDFGrid.peakAt g.prof p.dr pk n = pk.scale * (gaussY ((n : ℝ) * p.dr - pk.dist) pk.fwhm *
        ((n : ℝ) * p.dr / pk.dist)) := by
      unfold PDFGrid.peakAt
      show pk.scale * (gaussY _ pk.fwhm * _) = _
      rw [sub_div, div_self (hd pk hpk).ne', sub_add_cancel]
    rw [e, abs_mul, abs_mul, abs_of_pos ((gauss_spec pk.fwhm hw').2.1 _)]
    calc |pk.scale| * (gaussY ((n : ℝ) * p.dr - pk.dist) pk.fwhm * |(n : ℝ) * p.dr / pk.dist|)
        ≤ |pk.scale| * ((g.precision * gaussY 0 pk.fwhm) * |(n : ℝ) * p.dr / pk.dist|) :=
          mul_le_mul_of_nonneg_left (mul_le_mul_of_nonneg_right hle (abs_nonneg _)) (abs_nonneg _)
      _ = _ := by ring

/-! ### Concrete cases -/

/-- A reachable profile with a precision below one. -/
example : ∃ g : Gauss, g.Reach ∧ g.precision = 1 / 2 ∧ g.half = 1 / 2 := by
  refine ⟨[(1 : ℝ) / 2].foldl Gauss.setPrecision Gauss.new, ⟨_, rfl⟩, ?_⟩
  obtain ⟨h1, h2, _⟩ := set_spec Gauss.new (1 / 2)
  simp only [List.foldl_cons, List.foldl_nil]
  have hm : max ((1 : ℝ) / 2) dblEps = 1 / 2 := max_eq_left (by unfold dblEps; norm_num)
  rw [h1, h2, hm]
  refine ⟨rfl, ?_⟩
  unfold bound
  rw [if_pos (by norm_num), one_div, Real.log_inv, neg_neg]
  have := log2_pos
  rw [show Real.log 2 / (4 * Real.log 2) = (1 / 2) ^ 2 by field_simp; norm_num, Real.sqrt_sq (by norm_num)]
  norm_num

example : ∃ c : Cropped, c.Reach ∧ c.g.precision < 1 := by
  refine ⟨Cropped.new, ⟨[], rfl⟩, ?_⟩
  unfold Cropped.new Cropped.setPrecision Gauss.new
  obtain ⟨h1, _, _⟩ := set_spec ⟨0, 0, 0⟩ dblEps
  obtain ⟨h2, _, _⟩ := set_spec (Gauss.setPrecision ⟨0, 0, 0⟩ dblEps) (Gauss.setPrecision ⟨0, 0, 0⟩ dblEps).precision
  have hlt : dblEps < 1 := by unfold dblEps; norm_num
  simp only
  split <;> (
    show (Gauss.setPrecision _ _).precision < 1
    rw [h2, h1, max_self, max_self]
    exact hlt)

end Verif.Peak
