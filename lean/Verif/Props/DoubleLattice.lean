import Mathlib.Tactic.FieldSimp
import Mathlib.Tactic.LinearCombination
import Verif.Model.DoubleLattice
import Verif.Props.DoubleTrig
import Mathlib.Tactic.FinCases
/-! C107: cells with right angles in double precision. -/
namespace Verif.Double

theorem fl64_one : fl64 1 = 1 := isDouble_exact one_isDouble

/-- The length that the first base vector of a cell with right angles gets: the reciprocal of the reciprocal. -/
def twice (a : ℚ) : ℚ := fl64 (1 / fl64 (1 / a))

theorem cosd_90 (c : ℚ → ℚ) : cosdF fl64 c 90 = 0 := by
  have e := cosdF_exact fl64 c 90 ⟨1, Or.inr (by norm_num)⟩
  have z : Real.cos (((90 : ℚ) : ℝ) * Real.pi / 180) = 0 := by
    rw [← Real.cos_pi_div_two]
    congr 1
    push_cast
    ring
  rw [z] at e
  exact_mod_cast e

theorem sind_90 (c : ℚ → ℚ) : sindF fl64 c 90 = 1 := by
  have e := sindF_exact c 90 (by norm_num) ⟨0, Or.inr (by norm_num)⟩
  have z : Real.sin (((90 : ℚ) : ℝ) * Real.pi / 180) = 1 := by
    rw [← Real.sin_pi_div_two]
    congr 1
    push_cast
    ring
  rw [z] at e
  exact_mod_cast e

theorem volumeNormal_zero (sq : ℚ → ℚ) (hs : sq 1 = 1) : volumeNormalF fl64 sq 0 0 0 = 1 := by
  unfold volumeNormalF
  simp only [mul_zero, fl64_zero, add_zero, sub_zero, fl64_one, hs]

variable {a b c : ℚ}

/-- **C107.** The lattice of a cell with right angles: all angles and lengths are exact, and so are the second and third base vectors; the first is along the
x axis, with the reciprocal of the reciprocal of `a` for its length. -/
theorem right_angles (sq cosl : ℚ → ℚ) (hs : sq 1 = 1) (ha : IsDouble a) (hb : IsDouble b) (hc : IsDouble c) :
    let L := setLatParF fl64 sq cosl unitF a b c 90 90 90
    L.base = ![![twice a, 0, 0], ![0, b, 0], ![0, 0, c]] ∧ (L.a = a ∧ L.b = b ∧ L.c = c) ∧ (L.ca = 0 ∧ L.cb = 0 ∧ L.cg = 0) ∧
    (L.sa = 1 ∧ L.sb = 1 ∧ L.sg = 1) ∧ (L.ar = fl64 (1 / a) ∧ L.br = fl64 (1 / b) ∧ L.cr = fl64 (1 / c)) ∧ (L.car = 0 ∧ L.cbr = 0 ∧ L.cgr = 0) ∧
    (L.sar = 1 ∧ L.sbr = 1 ∧ L.sgr = 1) ∧ L.metrics = ![![fl64 (a * a), 0, 0], ![0, fl64 (b * b), 0], ![0, 0, fl64 (c * c)]] := by
  have fa := isDouble_exact ha
  have fb := isDouble_exact hb
  have fc := isDouble_exact hc
  have ft : fl64 (twice a) = twice a := isDouble_exact (fl64_isDouble _)
  have e : setLatParF fl64 sq cosl unitF a b c 90 90 90 =
      { a, b, c, ca := 0, cb := 0, cg := 0, sa := 1, sb := 1, sg := 1, ar := fl64 (1 / a), br := fl64 (1 / b), cr := fl64 (1 / c), car := 0, cbr := 0, cgr := 0,
        sar := 1, sbr := 1, sgr := 1, metrics := metricsF fl64 a b c 0 0 0, base := prodF fl64 (stdBaseF fl64 a b c 0 0 1 (fl64 (1 / a)) 0 1) unitF } := by
    unfold setLatParF
    simp only [cosd_90, sind_90, volumeNormal_zero sq hs, mul_zero, mul_one, sub_zero, zero_div, fl64_zero, fl64_one, fa, fb, fc, hs]
  rw [e]
  refine ⟨?_, ⟨rfl, rfl, rfl⟩, ⟨rfl, rfl, rfl⟩, ⟨rfl, rfl, rfl⟩, ⟨rfl, rfl, rfl⟩, ⟨rfl, rfl, rfl⟩, ⟨rfl, rfl, rfl⟩, ?_⟩
  · dsimp only
    unfold prodF vecmatF stdBaseF unitF
    rw [show fl64 (1 / fl64 (1 / a)) = twice a from rfl]
    funext i j
    fin_cases i <;> fin_cases j <;> simp [fl64_zero, fb, fc, ft]
  · dsimp only
    unfold metricsF
    funext i j
    fin_cases i <;> fin_cases j <;> simp [fl64_zero]

/-- The first length is off by no more than two roundings, relative to its size. -/
theorem twice_near (ha : 0 < a) : |twice a - a| ≤ a / 2 ^ 51 := by
  unfold twice
  have h1 := fl64_rounds (1 / a)
  have h2 := fl64_rounds (1 / fl64 (1 / a))
  rw [abs_of_pos (by positivity : 0 < 1 / a), abs_le] at h1
  have hq : 0 < fl64 (1 / a) := by
    have h0 : 0 < 1 / a := by positivity
    have : (1 : ℚ) / 2 ^ 53 * (1 / a) ≤ 1 / 2 * (1 / a) := mul_le_mul_of_nonneg_right (by norm_num) h0.le
    linarith [h1.1]
  generalize fl64 (1 / a) = q at h1 h2 hq
  rw [abs_of_pos (by positivity : 0 < 1 / q)] at h2
  generalize fl64 (1 / q) = w at h2
  have hq1 : 1 - 1 / 2 ^ 53 ≤ q * a := by
    have : (1 / a - 1 / 2 ^ 53 * (1 / a)) * a ≤ q * a := mul_le_mul_of_nonneg_right (by linarith) ha.le
    rw [sub_mul, mul_assoc, one_div_mul_cancel ha.ne'] at this
    linarith
  have hq2 : q * a ≤ 1 + 1 / 2 ^ 53 := by
    have : q * a ≤ (1 / a + 1 / 2 ^ 53 * (1 / a)) * a := mul_le_mul_of_nonneg_right (by linarith) ha.le
    rw [add_mul, mul_assoc, one_div_mul_cancel ha.ne'] at this
    linarith
  have i1 : 1 / q ≤ a * (1 + 3 / 2 ^ 54) := by
    rw [div_le_iff₀ hq]
    have : a * (1 + 3 / 2 ^ 54) * q = (q * a) * (1 + 3 / 2 ^ 54) := by ring
    rw [this]
    norm_num at hq1 ⊢
    nlinarith
  have i2 : a * (1 - 3 / 2 ^ 54) ≤ 1 / q := by
    rw [le_div_iff₀ hq]
    have : a * (1 - 3 / 2 ^ 54) * q = (q * a) * (1 - 3 / 2 ^ 54) := by ring
    rw [this]
    norm_num at hq2 ⊢
    nlinarith
  rw [abs_le] at h2 ⊢
  norm_num at h2 i1 i2 ⊢
  constructor <;> nlinarith [h2.1, h2.2]

/-- **C107.** Cartesian coordinates in a cell with right angles are the products of the fractional ones with the lengths of the edges, each with a relative error of a few
roundings; each depends on its own fractional coordinate only. -/
theorem right_cartesian (sq cosl : ℚ → ℚ) (hs : sq 1 = 1) (ha : IsDouble a) (hb : IsDouble b) (hc : IsDouble c) (ha0 : 0 < a) (v : V3) :
    let x := cartesianF fl64 (setLatParF fl64 sq cosl unitF a b c 90 90 90) v
    x = ![fl64 (v 0 * twice a), fl64 (v 1 * b), fl64 (v 2 * c)] ∧
    |x 0 - v 0 * a| ≤ |v 0 * a| / 2 ^ 50 ∧ |x 1 - v 1 * b| ≤ |v 1 * b| / 2 ^ 53 ∧ |x 2 - v 2 * c| ≤ |v 2 * c| / 2 ^ 53 := by
  intro x
  have ex : x = ![fl64 (v 0 * twice a), fl64 (v 1 * b), fl64 (v 2 * c)] := by
    show cartesianF _ _ _ = _
    unfold cartesianF vecmatF
    rw [(right_angles sq cosl hs ha hb hc).1]
    have i : ∀ y, fl64 (fl64 y) = fl64 y := fun y => isDouble_exact (fl64_isDouble y)
    funext j
    fin_cases j <;> simp [fl64_zero, i]
  refine ⟨ex, ?_, ?_, ?_⟩
  · rw [ex]
    show |fl64 (v 0 * twice a) - v 0 * a| ≤ _
    have h1 := fl64_rounds (v 0 * twice a)
    have h2 := twice_near ha0
    rw [abs_mul] at h1
    have h3 : |twice a| ≤ a * 2 := by
      rw [abs_le] at h2 ⊢
      norm_num at h2 ⊢
      constructor <;> linarith [h2.1, h2.2]
    have e : fl64 (v 0 * twice a) - v 0 * a = (fl64 (v 0 * twice a) - v 0 * twice a) + v 0 * (twice a - a) := by ring
    rw [e]
    refine (abs_add_le _ _).trans ?_
    rw [abs_mul (v 0) (twice a - a), abs_mul (v 0) a, abs_of_pos ha0]
    have b1 : |v 0| * |twice a| ≤ |v 0| * (a * 2) := mul_le_mul_of_nonneg_left h3 (abs_nonneg _)
    have b2 : |v 0| * |twice a - a| ≤ |v 0| * (a / 2 ^ 51) := mul_le_mul_of_nonneg_left h2 (abs_nonneg _)
    have b3 : 0 ≤ |v 0| * a := mul_nonneg (abs_nonneg _) ha0.le
    norm_num at h1 b2 ⊢
    nlinarith
  · rw [ex]
    have := fl64_rounds (v 1 * b)
    rw [div_eq_inv_mul, ← one_div]
    exact this
  · rw [ex]
    have := fl64_rounds (v 2 * c)
    rw [div_eq_inv_mul, ← one_div]
    exact this

/-- Points of the lattice whose coordinate along an axis is zero have Cartesian coordinate zero along it, exactly, and opposite points are exactly opposite. -/
theorem right_symmetric (sq cosl : ℚ → ℚ) (hs : sq 1 = 1) (ha : IsDouble a) (hb : IsDouble b) (hc : IsDouble c) (ha0 : 0 < a) (v : V3) :
    let L := setLatParF fl64 sq cosl unitF a b c 90 90 90
    (∀ j, v j = 0 → cartesianF fl64 L v j = 0) ∧ ∀ j, cartesianF fl64 L (-v) j = -cartesianF fl64 L v j := by
  intro L
  have h1 := (right_cartesian sq cosl hs ha hb hc ha0 v).1
  have h2 := (right_cartesian sq cosl hs ha hb hc ha0 (-v)).1
  constructor
  · intro j hj
    rw [show cartesianF fl64 L v = _ from h1]
    fin_cases j <;> (simp at hj; simp [hj, fl64_zero])
  · intro j
    rw [show cartesianF fl64 L v = _ from h1, show cartesianF fl64 L (-v) = _ from h2]
    fin_cases j <;> simp [fl64_neg]

/-- The volume is the product of the edges up to rounding, exactly `fl (fl (a b) c)`. -/
theorem right_volume (sq cosl : ℚ → ℚ) (hs : sq 1 = 1) (ha : IsDouble a) (hb : IsDouble b) (hc : IsDouble c) :
    volumeF fl64 sq (setLatParF fl64 sq cosl unitF a b c 90 90 90) = fl64 (fl64 (a * b) * c) := by
  obtain ⟨-, ⟨e1, e2, e3⟩, ⟨e4, e5, e6⟩, -⟩ := right_angles sq cosl hs ha hb hc
  unfold volumeF
  rw [e1, e2, e3, e4, e5, e6, volumeNormal_zero sq hs, one_mul, isDouble_exact ha]

/-- With any angles: the third base vector is exactly along the z axis with its exact length, the second lies in the yz plane, and the first is
as the standard base has it; multiplying with the unit rotation loses nothing. -/
theorem standard_orientation (sq cosl : ℚ → ℚ) (hc : IsDouble c) (alpha beta gamma : ℚ) :
    let L := setLatParF fl64 sq cosl unitF a b c alpha beta gamma
    L.base 2 = ![0, 0, c] ∧ L.base 1 = ![0, fl64 (b * L.sa), fl64 (b * L.ca)] ∧
    L.base 0 = ![fl64 (1 / L.ar), fl64 (fl64 (-L.cgr / L.sgr) / L.ar), fl64 (L.cb * a)] := by
  have fc := isDouble_exact hc
  have i : ∀ y, fl64 (fl64 y) = fl64 y := fun y => isDouble_exact (fl64_isDouble y)
  intro L
  have e : L.base = prodF fl64 (stdBaseF fl64 a b c L.ca L.cb L.sa L.ar L.cgr L.sgr) unitF := rfl
  rw [e]
  unfold prodF vecmatF stdBaseF unitF
  refine ⟨?_, ?_, ?_⟩ <;> (funext j; fin_cases j <;> simp [fl64_zero, fc, i])

/-- Cartesian coordinates in a cell with any angles: the z coordinate has a share of all three edges, x only of the first. -/
theorem general_cartesian (sq cosl : ℚ → ℚ) (hc : IsDouble c) (alpha beta gamma : ℚ) (v : V3) :
    let L := setLatParF fl64 sq cosl unitF a b c alpha beta gamma
    cartesianF fl64 L v = ![fl64 (v 0 * fl64 (1 / L.ar)), fl64 (fl64 (v 0 * fl64 (fl64 (-L.cgr / L.sgr) / L.ar)) + fl64 (v 1 * fl64 (b * L.sa))),
      fl64 (fl64 (fl64 (v 0 * fl64 (L.cb * a)) + fl64 (v 1 * fl64 (b * L.ca))) + fl64 (v 2 * c))] := by
  intro L
  obtain ⟨h2, h1, h0⟩ := standard_orientation (a := a) (b := b) sq cosl hc alpha beta gamma
  have i : ∀ y, fl64 (fl64 y) = fl64 y := fun y => isDouble_exact (fl64_isDouble y)
  unfold cartesianF vecmatF
  rw [show L.base 2 = _ from h2, show L.base 1 = _ from h1, show L.base 0 = _ from h0]
  funext j
  fin_cases j
  · simp [fl64_zero, i, L]
  · simp [fl64_zero, i, L]
  · rfl

/-- The volume of a unit cell in the cases whose cosines are exact: a right angle each, one angle of 120 or 60 degrees between right ones, three of 60 degrees. -/
theorem volumeNormal_cells (sq : ℚ → ℚ) :
    volumeNormalF fl64 sq 0 0 0 = sq 1 ∧ volumeNormalF fl64 sq 0 0 (-1 / 2) = sq (3 / 4) ∧ volumeNormalF fl64 sq 0 (-1 / 2) 0 = sq (3 / 4) ∧
    volumeNormalF fl64 sq (-1 / 2) 0 0 = sq (3 / 4) ∧ volumeNormalF fl64 sq 0 0 (1 / 2) = sq (3 / 4) ∧ volumeNormalF fl64 sq (1 / 2) (1 / 2) (1 / 2) = sq (1 / 2) := by
  unfold volumeNormalF
  refine ⟨?_, ?_, ?_, ?_, ?_, ?_⟩ <;> (congr 1; decide +kernel)

/-- The first edge is exact when its length is a power of two. -/
theorem twice_pow (e : ℤ) : twice (2 ^ e) = 2 ^ e := by
  unfold twice
  have h : ∀ e : ℤ, fl64 (2 ^ e) = 2 ^ e := fun e => isDouble_exact ⟨1, e, by norm_num, by simp⟩
  have i : (1 : ℚ) / 2 ^ e = 2 ^ (-e) := by rw [one_div, zpow_neg]
  have i' : (1 : ℚ) / 2 ^ (-e) = 2 ^ e := by rw [one_div, zpow_neg, inv_inv]
  rw [i, h, i', h]

/-- A cube that is not one: of the edges of 49 the first gets another length, so that the Cartesian coordinates of the points (1, 0, 0) and (0, 1, 0) are at different distances
from the origin. -/
theorem cube_bug (sq cosl : ℚ → ℚ) (hs : sq 1 = 1) : let L := setLatParF fl64 sq cosl unitF 49 49 49 90 90 90
    49 < cartesianF fl64 L ![1, 0, 0] 0 ∧ cartesianF fl64 L ![0, 1, 0] 1 = 49 ∧ L.a = 49 := by
  have d : IsDouble 49 := ⟨49, 0, by norm_num, by norm_num⟩
  have h1 := (right_cartesian sq cosl hs d d d (by norm_num) ![1, 0, 0]).1
  have h2 := (right_cartesian sq cosl hs d d d (by norm_num) ![0, 1, 0]).1
  dsimp only at h1 h2 ⊢
  rw [h1, h2]
  refine ⟨?_, ?_, rfl⟩
  · show 49 < fl64 (1 * twice 49)
    decide +kernel
  · show fl64 (1 * 49) = 49
    decide +kernel

/-- Exact square roots of the two radicands that occur in the base vectors. -/
structure Roots (sq : ℚ → ℚ) (ca cb cg sa sb : ℚ) : Prop where
  sines : 0 < sa ∧ 0 < sb ∧ sa * sa + ca * ca = 1 ∧ sb * sb + cb * cb = 1
  root : ∀ x, x = 1 + 2 * ca * cb * cg - ca * ca - cb * cb - cg * cg ∨ x = 1 - (ca * cb - cg) / (sa * sb) * ((ca * cb - cg) / (sa * sb)) → 0 < sq x ∧ sq x * sq x = x

/-- Without rounding, and when the square roots are exact, the products of the base vectors are the metric tensor: the lengths and angles of
the base vectors are the given ones. -/
theorem exact_gram (sq cosl : ℚ → ℚ) {a b c : ℚ} (alpha beta gamma : ℚ) (ha : 0 < a)
    (h : Roots sq (cosdF (fun x => x) cosl alpha) (cosdF (fun x => x) cosl beta) (cosdF (fun x => x) cosl gamma)
      (sindF (fun x => x) cosl alpha) (sindF (fun x => x) cosl beta)) (i j : Fin 3) :
    let L := setLatParF (fun x => x) sq cosl unitF a b c alpha beta gamma
    L.base i 0 * L.base j 0 + L.base i 1 * L.base j 1 + L.base i 2 * L.base j 2 =
      ![![a * a, a * b * cosdF (fun x => x) cosl gamma, a * c * cosdF (fun x => x) cosl beta],
        ![a * b * cosdF (fun x => x) cosl gamma, b * b, b * c * cosdF (fun x => x) cosl alpha],
        ![a * c * cosdF (fun x => x) cosl beta, b * c * cosdF (fun x => x) cosl alpha, c * c]] i j := by
  simp only [setLatParF, prodF, vecmatF, stdBaseF, unitF, volumeNormalF]
  generalize cosdF (fun x => x) cosl alpha = ca at *
  generalize cosdF (fun x => x) cosl beta = cb at *
  generalize cosdF (fun x => x) cosl gamma = cg at *
  generalize sindF (fun x => x) cosl alpha = sa at *
  generalize sindF (fun x => x) cosl beta = sb at *
  obtain ⟨⟨hsa, hsb, h1, h2⟩, hr⟩ := h
  obtain ⟨p1, q1⟩ := hr _ (Or.inl rfl)
  obtain ⟨p2, q2⟩ := hr _ (Or.inr rfl)
  generalize sq (1 + 2 * ca * cb * cg - ca * ca - cb * cb - cg * cg) = vn at *
  generalize sq (1 - (ca * cb - cg) / (sa * sb) * ((ca * cb - cg) / (sa * sb))) = sgr at *
  have hv : vn = sa * sb * sgr := by
    have : vn * vn = (sa * sb * sgr) * (sa * sb * sgr) := by
      have e : (sa * sb * sgr) * (sa * sb * sgr) = sa * sa * (sb * sb) * (sgr * sgr) := by ring
      rw [e, q1, q2]
      field_simp
      linear_combination (-(sb * sb)) * h1 - (1 - ca * ca) * h2
    have hp : 0 < sa * sb * sgr := by positivity
    nlinarith
  have hs0 : sgr ≠ 0 := p2.ne'
  have e0 : 1 / (sa / (a * vn)) = a * sb * sgr := by rw [hv]; field_simp
  have e1 : -((ca * cb - cg) / (sa * sb)) / sgr / (sa / (a * vn)) = -(ca * cb - cg) * a / sa := by rw [hv]; field_simp
  have hq : sgr * sgr * (sa * sa * (sb * sb)) = sa * sa * (sb * sb) - (ca * cb - cg) * (ca * cb - cg) := by
    rw [q2]; field_simp
  have n00 : a * sb * sgr * (a * sb * sgr) + -(ca * cb - cg) * a / sa * (-(ca * cb - cg) * a / sa) + cb * a * (cb * a) = a * a := by
    field_simp
    linear_combination hq + sa * sa * h2
  have n01 : -(ca * cb - cg) * a / sa * (b * sa) + cb * a * (b * ca) = a * b * cg := by
    field_simp
    ring
  have n11 : b * sa * (b * sa) + b * ca * (b * ca) = b * b := by linear_combination b * b * h1
  fin_cases i <;> fin_cases j <;>
    simp only [e0, e1, Fin.zero_eta, Fin.mk_one, Fin.reduceFinMk, Fin.isValue, Matrix.cons_val_zero, Matrix.cons_val_one, Matrix.cons_val, mul_zero, mul_one, zero_mul, add_zero, zero_add]
  · exact n00
  · exact n01
  · ring
  · linear_combination n01
  · exact n11
  · ring
  · ring
  · ring

/-- Without rounding, and with exact square roots, the volume is the (positively oriented) determinant of the base vectors. -/
theorem exact_volume (sq cosl : ℚ → ℚ) {a b c : ℚ} (alpha beta gamma : ℚ) (ha : 0 < a)
    (h : Roots sq (cosdF (fun x => x) cosl alpha) (cosdF (fun x => x) cosl beta) (cosdF (fun x => x) cosl gamma)
      (sindF (fun x => x) cosl alpha) (sindF (fun x => x) cosl beta)) :
    let L := setLatParF (fun x => x) sq cosl unitF a b c alpha beta gamma
    volumeF (fun x => x) sq L = L.base 0 0 * (L.base 1 1 * L.base 2 2 - L.base 1 2 * L.base 2 1) - L.base 0 1 * (L.base 1 0 * L.base 2 2 - L.base 1 2 * L.base 2 0) +
      L.base 0 2 * (L.base 1 0 * L.base 2 1 - L.base 1 1 * L.base 2 0) := by
  simp only [setLatParF, prodF, vecmatF, stdBaseF, unitF, volumeNormalF, volumeF]
  generalize cosdF (fun x => x) cosl alpha = ca at *
  generalize cosdF (fun x => x) cosl beta = cb at *
  generalize cosdF (fun x => x) cosl gamma = cg at *
  generalize sindF (fun x => x) cosl alpha = sa at *
  generalize sindF (fun x => x) cosl beta = sb at *
  obtain ⟨⟨hsa, hsb, h1, h2⟩, hr⟩ := h
  obtain ⟨p1, q1⟩ := hr _ (Or.inl rfl)
  generalize sq (1 + 2 * ca * cb * cg - ca * ca - cb * cb - cg * cg) = vn at *
  simp only [Matrix.cons_val_zero, Matrix.cons_val_one, Matrix.cons_val, mul_zero, mul_one, zero_mul, add_zero, zero_add, sub_zero]
  field_simp

/-- The metric tensor from lengths and cosines. -/
def gram (a b c ca cb cg : ℚ) : Fin 3 → V3 :=
  ![![a * a, a * b * cg, a * c * cb], ![a * b * cg, b * b, b * c * ca], ![a * c * cb, b * c * ca, c * c]]

/-- Without rounding, the reciprocal edges and angles give the inverse of the metric tensor. -/
theorem exact_reciprocal (sq cosl : ℚ → ℚ) {a b c : ℚ} (alpha beta gamma : ℚ) (ha : 0 < a) (hb : 0 < b) (hc : 0 < c)
    (h : Roots sq (cosdF (fun x => x) cosl alpha) (cosdF (fun x => x) cosl beta) (cosdF (fun x => x) cosl gamma)
      (sindF (fun x => x) cosl alpha) (sindF (fun x => x) cosl beta))
    (hg : 0 < sindF (fun x => x) cosl gamma ∧ sindF (fun x => x) cosl gamma * sindF (fun x => x) cosl gamma +
      cosdF (fun x => x) cosl gamma * cosdF (fun x => x) cosl gamma = 1) (i j : Fin 3) :
    let L := setLatParF (fun x => x) sq cosl unitF a b c alpha beta gamma
    L.metrics = gram a b c (cosdF (fun x => x) cosl alpha) (cosdF (fun x => x) cosl beta) (cosdF (fun x => x) cosl gamma) ∧
    L.metrics i 0 * gram L.ar L.br L.cr L.car L.cbr L.cgr 0 j + L.metrics i 1 * gram L.ar L.br L.cr L.car L.cbr L.cgr 1 j +
      L.metrics i 2 * gram L.ar L.br L.cr L.car L.cbr L.cgr 2 j = if i = j then 1 else 0 := by
  intro L
  refine ⟨rfl, ?_⟩
  show metricsF (fun x => x) a b c _ _ _ i 0 * gram _ _ _ _ _ _ 0 j + metricsF (fun x => x) a b c _ _ _ i 1 * gram _ _ _ _ _ _ 1 j + metricsF (fun x => x) a b c _ _ _ i 2 * gram _ _ _ _ _ _ 2 j = _
  simp only [L, setLatParF, metricsF, volumeNormalF]
  generalize cosdF (fun x => x) cosl alpha = ca at *
  generalize cosdF (fun x => x) cosl beta = cb at *
  generalize cosdF (fun x => x) cosl gamma = cg at *
  generalize sindF (fun x => x) cosl alpha = sa at *
  generalize sindF (fun x => x) cosl beta = sb at *
  generalize sindF (fun x => x) cosl gamma = sg at *
  obtain ⟨⟨hsa, hsb, h1, h2⟩, hr⟩ := h
  obtain ⟨p1, q1⟩ := hr _ (Or.inl rfl)
  obtain ⟨hsg, h3⟩ := hg
  generalize sq (1 + 2 * ca * cb * cg - ca * ca - cb * cb - cg * cg) = vn at *
  unfold gram
  have g00 : sa / (a * vn) * (sa / (a * vn)) = (1 - ca * ca) / (a * a) / (vn * vn) := by
    field_simp; linear_combination h1
  have g11 : sb / (b * vn) * (sb / (b * vn)) = (1 - cb * cb) / (b * b) / (vn * vn) := by
    field_simp; linear_combination h2
  have g22 : sg / (c * vn) * (sg / (c * vn)) = (1 - cg * cg) / (c * c) / (vn * vn) := by
    field_simp; linear_combination h3
  have g01 : sa / (a * vn) * (sb / (b * vn)) * ((ca * cb - cg) / (sa * sb)) = (ca * cb - cg) / (a * b) / (vn * vn) := by field_simp
  have g02 : sa / (a * vn) * (sg / (c * vn)) * ((ca * cg - cb) / (sa * sg)) = (ca * cg - cb) / (a * c) / (vn * vn) := by field_simp
  have g12 : sb / (b * vn) * (sg / (c * vn)) * ((cb * cg - ca) / (sb * sg)) = (cb * cg - ca) / (b * c) / (vn * vn) := by field_simp
  have hv : vn * vn ≠ 0 := by positivity
  rw [g00, g11, g22, g01, g02, g12]
  generalize vn * vn = w at *
  have ha := ha.ne'
  have hb := hb.ne'
  have hc := hc.ne'
  fin_cases i <;> fin_cases j <;>
    simp only [Fin.zero_eta, Fin.mk_one, Fin.reduceFinMk, Fin.isValue, Matrix.cons_val_zero, Matrix.cons_val_one, Matrix.cons_val, Fin.reduceEq, if_true, if_false] <;>
    field_simp <;> first | ring1 | linear_combination (-1) * q1

/-- Without rounding, and with exact square roots, cosines and sines of the reciprocal angles belong together. -/
theorem reciprocal_sines (sq cosl : ℚ → ℚ) {a b c : ℚ} (alpha beta gamma : ℚ) :
    let L := setLatParF (fun x => x) sq cosl unitF a b c alpha beta gamma
    (∀ x, x = 1 - L.car * L.car ∨ x = 1 - L.cbr * L.cbr ∨ x = 1 - L.cgr * L.cgr → 0 < sq x ∧ sq x * sq x = x) →
    (0 < L.sar ∧ 0 < L.sbr ∧ 0 < L.sgr) ∧ L.sar * L.sar + L.car * L.car = 1 ∧ L.sbr * L.sbr + L.cbr * L.cbr = 1 ∧ L.sgr * L.sgr + L.cgr * L.cgr = 1 := by
  intro L h
  obtain ⟨p1, q1⟩ := h _ (Or.inl rfl)
  obtain ⟨p2, q2⟩ := h _ (Or.inr (Or.inl rfl))
  obtain ⟨p3, q3⟩ := h _ (Or.inr (Or.inr rfl))
  have e1 : L.sar = sq (1 - L.car * L.car) := rfl
  have e2 : L.sbr = sq (1 - L.cbr * L.cbr) := rfl
  have e3 : L.sgr = sq (1 - L.cgr * L.cgr) := rfl
  rw [e1, e2, e3]
  refine ⟨⟨p1, p2, p3⟩, ?_, ?_, ?_⟩ <;> linarith

/-- A lattice with an oblique angle to which `exact_gram`, `exact_volume` and `exact_reciprocal` apply. -/
theorem roots_exists : ∃ sq cosl : ℚ → ℚ, cosdF (fun x => x) cosl 50 = 3 / 5 ∧ Roots sq (cosdF (fun x => x) cosl 90) (cosdF (fun x => x) cosl 90)
    (cosdF (fun x => x) cosl 50) (sindF (fun x => x) cosl 90) (sindF (fun x => x) cosl 90) ∧ sindF (fun x => x) cosl 50 = 4 / 5 := by
  refine ⟨fun _ => 4 / 5, fun t => if t > 4 / 5 then 3 / 5 else 4 / 5, by decide +kernel, ?_, by decide +kernel⟩
  have e1 : cosdF (fun x => x) (fun t => if t > 4 / 5 then 3 / 5 else 4 / 5) 90 = 0 := by decide +kernel
  have e2 : cosdF (fun x => x) (fun t => if t > 4 / 5 then 3 / 5 else 4 / 5) 50 = 3 / 5 := by decide +kernel
  have e3 : sindF (fun x => x) (fun t => if t > 4 / 5 then 3 / 5 else 4 / 5) 90 = 1 := by decide +kernel
  rw [e1, e2, e3]
  refine ⟨by norm_num, ?_⟩
  rintro x (rfl | rfl) <;> norm_num

end Verif.Double
