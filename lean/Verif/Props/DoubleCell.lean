import Verif.Model.DoubleCell
import Verif.Props.DoubleLattice
/-! C110: fractional coordinates and wrapping in cells with right angles, in double precision. -/
namespace Verif.Double

/-- A diagonal matrix. -/
def diag (d : V3) : Fin 3 → V3 := ![![d 0, 0, 0], ![0, d 1, 0], ![0, 0, d 2]]

/-- The inverse of a diagonal matrix has the rounded reciprocals on its diagonal, as an LU decomposition gives it: no other operation changes anything. -/
def InvDiag (inv : (Fin 3 → V3) → Fin 3 → V3) : Prop := ∀ d : V3, (∀ i, 0 < d i) → inv (diag d) = diag (fun i => fl64 (1 / d i))

/-- The lengths of the base vectors (C107). -/
def edges (a b c : ℚ) : V3 := ![twice a, b, c]

variable {a b c : ℚ} {sq cosl : ℚ → ℚ} {inv : (Fin 3 → V3) → Fin 3 → V3}

/-- A lattice with right angles whose edges are positive doubles. -/
structure Right (sq : ℚ → ℚ) (inv : (Fin 3 → V3) → Fin 3 → V3) (a b c : ℚ) : Prop where
  one : sq 1 = 1
  inv : InvDiag inv
  da : IsDouble a
  db : IsDouble b
  dc : IsDouble c
  pa : 0 < a
  pb : 0 < b
  pc : 0 < c

theorem edges_pos (h : Right sq inv a b c) (i : Fin 3) : 0 < edges a b c i := by
  fin_cases i
  · have := twice_near h.pa
    rw [abs_le] at this
    show 0 < twice a
    have ha := h.pa
    norm_num at this
    linarith [this.1]
  · exact h.pb
  · exact h.pc

theorem diag_apply (d v : V3) : vecmatF fl64 v (diag d) = fun i => fl64 (v i * d i) := by
  have i : ∀ y, fl64 (fl64 y) = fl64 y := fun y => isDouble_exact (fl64_isDouble y)
  unfold vecmatF diag
  funext j
  fin_cases j <;> simp [fl64_zero, i]

theorem right_base (h : Right sq inv a b c) : (setLatParF fl64 sq cosl unitF a b c 90 90 90).base = diag (edges a b c) :=
  (right_angles sq cosl h.one h.da h.db h.dc).1

theorem cart_eq (h : Right sq inv a b c) (v : V3) : cartesianF fl64 (setLatParF fl64 sq cosl unitF a b c 90 90 90) v = fun i => fl64 (v i * edges a b c i) := by
  unfold cartesianF
  rw [right_base h, diag_apply]

theorem frac_eq (h : Right sq inv a b c) (x : V3) :
    fractionalF fl64 inv (setLatParF fl64 sq cosl unitF a b c 90 90 90) x = fun i => fl64 (x i * fl64 (1 / edges a b c i)) := by
  unfold fractionalF
  rw [right_base h, h.inv _ (edges_pos h), diag_apply]

theorem product_near (x d : ℚ) (hd : 0 < d) : |fl64 (x * fl64 (1 / d)) - x / d| ≤ |x / d| * (9 / 2 ^ 56 * 2) := by
  have h1 := fl64_rounds (x * fl64 (1 / d))
  have h2 := fl64_rounds (1 / d)
  have hp : 0 < 1 / d := by positivity
  rw [abs_of_pos hp, abs_le] at h2
  generalize fl64 (x * fl64 (1 / d)) = w at h1
  generalize fl64 (1 / d) = q at *
  have e : w - x / d = (w - x * q) + x * (q - 1 / d) := by ring
  have hx : |x / d| = |x| * (1 / d) := by rw [abs_div, abs_of_pos hd]; ring
  rw [e, hx]
  refine (abs_add_le _ _).trans ?_
  rw [abs_mul] at h1
  rw [abs_mul]
  have a1 : |q| ≤ (1 + 1 / 2 ^ 53) * (1 / d) := by
    rw [abs_le]
    constructor <;> norm_num at h2 hp ⊢ <;> linarith [h2.1, h2.2]
  have a2 : |q - 1 / d| ≤ 1 / 2 ^ 53 * (1 / d) := abs_le.2 h2
  have b1 := mul_le_mul_of_nonneg_left a1 (abs_nonneg x)
  have b2 := mul_le_mul_of_nonneg_left a2 (abs_nonneg x)
  have b3 : 0 ≤ |x| * (1 / d) := mul_nonneg (abs_nonneg _) hp.le
  norm_num at h1 b1 b2 b3 ⊢
  nlinarith

/-- **C110.** Fractional coordinates of the Cartesian coordinates of a point, and conversely, are the coordinates one started with, up to a few roundings. -/
theorem round_trip (h : Right sq inv a b c) (v : V3) (i : Fin 3) : let L := setLatParF fl64 sq cosl unitF a b c 90 90 90
    |fractionalF fl64 inv L (cartesianF fl64 L v) i - v i| ≤ |v i| / 2 ^ 51 ∧ |cartesianF fl64 L (fractionalF fl64 inv L v) i - v i| ≤ |v i| / 2 ^ 51 := by
  intro L
  have hd := edges_pos h i
  show |fractionalF fl64 inv (setLatParF fl64 sq cosl unitF a b c 90 90 90) (cartesianF fl64 (setLatParF fl64 sq cosl unitF a b c 90 90 90) v) i - v i| ≤ _ ∧
    |cartesianF fl64 (setLatParF fl64 sq cosl unitF a b c 90 90 90) (fractionalF fl64 inv (setLatParF fl64 sq cosl unitF a b c 90 90 90) v) i - v i| ≤ _
  rw [frac_eq h, cart_eq h, cart_eq h, frac_eq h]
  dsimp only
  generalize edges a b c i = d at *
  generalize v i = x
  constructor
  · have h1 := product_near (fl64 (x * d)) d hd
    have h2 := fl64_rounds (x * d)
    generalize fl64 (x * d) = y at *
    generalize fl64 (y * fl64 (1 / d)) = w at *
    have e2 : |y / d - x| ≤ 1 / 2 ^ 53 * |x| := by
      have : y / d - x = (y - x * d) / d := by field_simp
      rw [this, abs_div, abs_of_pos hd, div_le_iff₀ hd]
      rw [abs_mul, abs_of_pos hd] at h2
      linarith
    have e3 : |y / d| ≤ |x| * (1 + 1 / 2 ^ 53) := by
      have := abs_add_le (y / d - x) x
      rw [sub_add_cancel] at this
      linarith
    have := abs_add_le (w - y / d) (y / d - x)
    rw [sub_add_sub_cancel] at this
    have hx := abs_nonneg x
    norm_num at h1 e2 e3 ⊢
    nlinarith
  · have h1 := product_near x d hd
    generalize fl64 (x * fl64 (1 / d)) = w at *
    have h2 := fl64_rounds (w * d)
    generalize fl64 (w * d) = y at *
    have e1 : |w * d - x| ≤ |x| * (9 / 2 ^ 56 * 2) := by
      have : w * d - x = (w - x / d) * d := by field_simp
      rw [this, abs_mul, abs_of_pos hd]
      rw [abs_div, abs_of_pos hd] at h1
      have := mul_le_mul_of_nonneg_right h1 hd.le
      have e : |x| / d * (9 / 2 ^ 56 * 2) * d = |x| * (9 / 2 ^ 56 * 2) := by field_simp
      rw [e] at this
      exact this
    have e3 : |w * d| ≤ |x| * (1 + 9 / 2 ^ 56 * 2) := by
      have := abs_add_le (w * d - x) x
      rw [sub_add_cancel] at this
      linarith
    have := abs_add_le (y - w * d) (w * d - x)
    rw [sub_add_sub_cancel] at this
    have hx := abs_nonneg x
    norm_num at h2 e1 e3 ⊢
    nlinarith

/-- **C110.** Wrapped Cartesian coordinates are in the cell: from zero to less than the length of the base vector. -/
theorem ucv_range (h : Right sq inv a b c) (x : V3) (i : Fin 3) :
    0 ≤ ucvCartesianF fl64 inv (setLatParF fl64 sq cosl unitF a b c 90 90 90) x i ∧
    ucvCartesianF fl64 inv (setLatParF fl64 sq cosl unitF a b c 90 90 90) x i < edges a b c i := by
  unfold ucvCartesianF
  rw [cart_eq h]
  dsimp only
  unfold ucvFractionalF
  have hd := edges_pos h i
  obtain ⟨-, h1, h2⟩ := wrap_range (fractionalF fl64 inv (setLatParF fl64 sq cosl unitF a b c 90 90 90) x i)
  generalize wrapF fl64 (fractionalF fl64 inv (setLatParF fl64 sq cosl unitF a b c 90 90 90) x i) = w at *
  generalize edges a b c i = d at *
  refine ⟨le_fl64 zero_isDouble (mul_nonneg h1 hd.le), ?_⟩
  have h3 := fl64_rounds (w * d)
  rw [abs_of_nonneg (mul_nonneg h1 hd.le), abs_le] at h3
  have h4 : w * d ≤ (1 - sqrtEpsF) * d := mul_le_mul_of_nonneg_right h2.le hd.le
  unfold sqrtEpsF at h4
  norm_num at h3 h4
  linarith [h3.2]

/-- **C110.** Wrapping moves a coordinate by whole cells, up to the tolerance and roundings. -/
theorem ucv_near (h : Right sq inv a b c) (x : V3) (i : Fin 3) : ∃ n : ℤ,
    |ucvCartesianF fl64 inv (setLatParF fl64 sq cosl unitF a b c 90 90 90) x i - (x i - n * edges a b c i)| ≤ edges a b c i / 2 ^ 25 + |x i| / 2 ^ 51 := by
  unfold ucvCartesianF
  rw [cart_eq h]
  dsimp only
  unfold ucvFractionalF
  rw [frac_eq h]
  dsimp only
  have hd := edges_pos h i
  generalize edges a b c i = d at *
  generalize x i = x
  have h1 := product_near x d hd
  generalize fl64 (x * fl64 (1 / d)) = f at *
  obtain ⟨-, w0, w1⟩ := wrap_range f
  have hw := wrap_near f
  have h3 := fl64_rounds (wrapF fl64 f * d)
  rw [abs_of_nonneg (mul_nonneg w0 hd.le)] at h3
  generalize wrapF fl64 f = w at *
  generalize fl64 (w * d) = y at *
  have hw1 : w * d ≤ d := by
    have : w ≤ 1 := by unfold sqrtEpsF at w1; norm_num at w1; linarith
    nlinarith
  obtain ⟨n, hn⟩ : ∃ n : ℤ, |w - (f - n)| ≤ 5 / 4 / 2 ^ 26 := by
    rcases hw with hw | ⟨hw, hw'⟩
    · refine ⟨⌊f⌋, ?_⟩
      have e : Int.fract f = f - ⌊f⌋ := rfl
      rw [e] at hw
      refine hw.trans ?_
      norm_num
    · refine ⟨⌊f⌋ + 1, ?_⟩
      have e : Int.fract f = f - ⌊f⌋ := rfl
      have := Int.fract_lt_one f
      rw [e] at hw' this
      rw [hw, abs_le]
      unfold sqrtEpsF at hw'
      push_cast
      norm_num at hw' ⊢
      constructor <;> linarith
  refine ⟨n, ?_⟩
  have e : y - (x - n * d) = (y - w * d) + (w - (f - n)) * d + (f - x / d) * d := by field_simp; ring
  have e1 : |(w - (f - n)) * d| ≤ 5 / 4 / 2 ^ 26 * d := by
    rw [abs_mul, abs_of_pos hd]
    exact mul_le_mul_of_nonneg_right hn hd.le
  have e2 : |(f - x / d) * d| ≤ |x| * (9 / 2 ^ 56 * 2) := by
    rw [abs_mul, abs_of_pos hd]
    rw [abs_div, abs_of_pos hd] at h1
    have := mul_le_mul_of_nonneg_right h1 hd.le
    have e : |x| / d * (9 / 2 ^ 56 * 2) * d = |x| * (9 / 2 ^ 56 * 2) := by field_simp
    rw [e] at this
    exact this
  rw [e]
  refine (abs_add_le _ _).trans ((add_le_add_left (abs_add_le _ _) _).trans ?_)
  have hx := abs_nonneg x
  norm_num at h3 e1 e2 ⊢
  linarith

/-- The hypotheses can be met. -/
theorem right_exists : ∃ inv, Right (fun x => x) inv 3 4 5 := by
  classical
  let inv : (Fin 3 → V3) → Fin 3 → V3 := fun M => diag fun i => fl64 (1 / M i i)
  refine ⟨inv, rfl, ?_, ⟨3, 0, by norm_num, by norm_num⟩, ⟨4, 0, by norm_num, by norm_num⟩, ⟨5, 0, by norm_num, by norm_num⟩, by norm_num, by norm_num, by norm_num⟩
  intro d _
  show diag _ = diag _
  congr 1
  funext i
  fin_cases i <;> rfl

end Verif.Double
