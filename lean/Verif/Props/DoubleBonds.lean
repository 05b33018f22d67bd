import Verif.Model.DoubleBonds
import Verif.Props.DoubleNorm
/-! C109: the range of bonds in double precision. -/
namespace Verif.Double

variable {sq : ℚ → ℚ}

theorem sqrt_mono (hs : SqrtOk sq) {x y : ℚ} (hx : 0 ≤ x) (hxy : x ≤ y) : sq x ≤ sq y := by
  by_contra hc
  rw [not_le] at hc
  have hy := hx.trans hxy
  rcases hx.eq_or_lt with rfl | hx0
  · rw [sqrt_zero hs] at hc
    have := (hs y 0 hy (le_refl _)).1 (by rw [mul_zero]; exact hy)
    rw [fl64_zero] at this
    linarith
  rcases hxy.eq_or_lt with rfl | hlt
  · exact lt_irrefl _ hc
  have hr : Real.sqrt x < Real.sqrt y := Real.sqrt_lt_sqrt (by exact_mod_cast hx) (by exact_mod_cast hlt)
  obtain ⟨q, q1, q2⟩ := exists_rat_btwn hr
  have q0 : (0 : ℝ) ≤ q := (Real.sqrt_nonneg _).trans q1.le
  have q0' : 0 ≤ q := by exact_mod_cast q0
  have h1 : x ≤ q * q := by
    have := Real.lt_sq_of_sqrt_lt q1
    rw [pow_two] at this
    exact_mod_cast this.le
  have h2 : q * q ≤ y := by
    have := Real.lt_sqrt q0 |>.1 q2
    rw [pow_two] at this
    exact_mod_cast this.le
  exact absurd (((hs x q hx q0').2 h1).trans ((hs y q hy q0').1 h2)) (not_le.2 hc)

/-- **C109.** A calculated length is never less than a component of the vector. -/
theorem norm_ge_component (hs : SqrtOk sq) (u : V3) (hu : ∀ i, IsDouble (u i)) (k : Fin 3) : |u k| ≤ normF fl64 sq u := by
  rw [← sqrt_sq hs (hu k)]
  have p : ∀ i, 0 ≤ fl64 (u i * u i) := fun i => le_fl64 zero_isDouble (mul_self_nonneg _)
  refine sqrt_mono hs (p k) ?_
  unfold dotF
  have i : ∀ i, fl64 (fl64 (u i * u i)) = fl64 (u i * u i) := fun i => isDouble_exact (fl64_isDouble _)
  have s : fl64 (u 0 * u 0) ≤ fl64 (fl64 (u 0 * u 0) + fl64 (u 1 * u 1)) := le_fl64 (fl64_isDouble _) (by linarith [p 1])
  have s' : fl64 (u 1 * u 1) ≤ fl64 (fl64 (u 0 * u 0) + fl64 (u 1 * u 1)) := le_fl64 (fl64_isDouble _) (by linarith [p 0])
  have t : fl64 (fl64 (u 0 * u 0) + fl64 (u 1 * u 1)) ≤ fl64 (fl64 (fl64 (u 0 * u 0) + fl64 (u 1 * u 1)) + fl64 (u 2 * u 2)) :=
    le_fl64 (fl64_isDouble _) (by linarith [p 2])
  fin_cases k
  · exact s.trans t
  · exact s'.trans t
  · exact le_fl64 (fl64_isDouble _) (by have := p 0; dsimp only [Fin.reduceFinMk]; linarith)

theorem distance_symm (sq : ℚ → ℚ) (u v : V3) : normF fl64 sq (fun i => fl64 (v i - u i)) = distanceF fl64 sq u v := distance_comm sq v u

/-- The distance that the generator has for a pair within `rmax` is the distance of the points. -/
theorem updateDistance_cases (hs : SqrtOk sq) (rmax : ℚ) (r0 r1 : V3) :
    updateDistanceF fl64 sq rmax r0 r1 = distanceF fl64 sq r0 r1 ∨ (rmax < updateDistanceF fl64 sq rmax r0 r1 ∧ rmax < distanceF fl64 sq r0 r1) := by
  have h : ∀ k, |fl64 (r1 k - r0 k)| ≤ distanceF fl64 sq r0 r1 := fun k => by
    rw [← distance_symm]
    exact norm_ge_component hs (fun i => fl64 (r1 i - r0 i)) (fun i => fl64_isDouble _) k
  unfold updateDistanceF
  dsimp only
  split
  · rename_i h1
    exact Or.inr ⟨h1, lt_of_lt_of_le h1 (h 0)⟩
  · split
    · rename_i h1
      exact Or.inr ⟨h1, lt_of_lt_of_le h1 (h 1)⟩
    · split
      · rename_i h1
        exact Or.inr ⟨h1, lt_of_lt_of_le h1 (h 2)⟩
      · exact Or.inl (distance_symm sq r0 r1)

theorem distance_isDouble (hs : SqrtOk sq) (u v : V3) : 0 ≤ distanceF fl64 sq u v :=
  (abs_nonneg _).trans (by rw [← distance_symm]; exact norm_ge_component hs (fun i => fl64 (v i - u i)) (fun i => fl64_isDouble _) 0)

/-- **C109.** A pair of points is a bond exactly when their distance, as the library calculates it, is in the closed range and above the tolerance: that the norm is not
calculated for a pair with a large component makes no difference. -/
theorem bond_kept_iff (hs : SqrtOk sq) (rmin rmax : ℚ) (r0 r1 : V3) :
    bondKeptF fl64 sq rmin rmax r0 r1 ↔ rmin ≤ distanceF fl64 sq r0 r1 ∧ distanceF fl64 sq r0 r1 ≤ rmax ∧ 1 / 2 ^ 26 < fl64 (distanceF fl64 sq r0 r1) := by
  have hn := distance_isDouble hs r0 r1
  have self : ∀ d, 0 ≤ d → (¬ atSelfPairF fl64 d ↔ 1 / 2 ^ 26 < fl64 d) := by
    intro d hd
    unfold atSelfPairF epsEqF sqrtEpsF
    rw [sub_zero, abs_of_nonneg (le_fl64 zero_isDouble hd), not_le]
  unfold bondKeptF bondOutOfRangeF
  rcases updateDistance_cases hs rmax r0 r1 with h | ⟨h1, h2⟩
  · rw [h, self _ hn]
    push Not
    tauto
  · constructor
    · rintro ⟨h, -⟩
      exact absurd (Or.inr h1) h
    · rintro ⟨-, h, -⟩
      exact absurd h2 (not_lt.2 h)

/-- A pair is a bond in both directions or in none. -/
theorem bond_kept_comm (hs : SqrtOk sq) (rmin rmax : ℚ) (r0 r1 : V3) : bondKeptF fl64 sq rmin rmax r0 r1 ↔ bondKeptF fl64 sq rmin rmax r1 r0 := by
  rw [bond_kept_iff hs, bond_kept_iff hs, distance_comm]

/-- The distance of two points over the reals. -/
noncomputable def realDistance (u v : V3) : ℝ := Real.sqrt (((u 0 : ℝ) - v 0) ^ 2 + ((u 1 : ℝ) - v 1) ^ 2 + ((u 2 : ℝ) - v 2) ^ 2)

/-- **C109.** A pair whose real distance is inside of the range by a relative margin of 2⁻⁵⁰ is a bond, one outside by this margin is not. -/
theorem bond_kept_real (hs : SqrtOk sq) (rmin rmax : ℚ) (r0 r1 : V3) (h0 : 0 ≤ rmin) :
    ((rmin : ℝ) * (1 + 1 / 2 ^ 50) ≤ realDistance r0 r1 → realDistance r0 r1 ≤ rmax * (1 - 1 / 2 ^ 50) → 1 / 2 ^ 25 ≤ realDistance r0 r1 → bondKeptF fl64 sq rmin rmax r0 r1) ∧
    (bondKeptF fl64 sq rmin rmax r0 r1 → (rmin : ℝ) * (1 - 1 / 2 ^ 50) ≤ realDistance r0 r1 ∧ realDistance r0 r1 ≤ rmax * (1 + 1 / 2 ^ 50) ∧ 1 / 2 ^ 27 < realDistance r0 r1) := by
  rw [bond_kept_iff hs]
  have hd := distance_near hs r0 r1
  change |(distanceF fl64 sq r0 r1 : ℝ) - realDistance r0 r1| ≤ realDistance r0 r1 / 2 ^ 51 at hd
  have hR : 0 ≤ realDistance r0 r1 := Real.sqrt_nonneg _
  have hf := fl64_real (distanceF fl64 sq r0 r1)
  have hn : (0 : ℝ) ≤ distanceF fl64 sq r0 r1 := by exact_mod_cast distance_isDouble hs r0 r1
  have h0r : (0 : ℝ) ≤ rmin := by exact_mod_cast h0
  generalize realDistance r0 r1 = R at *
  generalize distanceF fl64 sq r0 r1 = d at *
  generalize fl64 d = f at *
  rw [abs_of_nonneg hn, abs_le] at hf
  rw [abs_le] at hd
  norm_num at hd hf
  have q1 : rmin ≤ d ↔ (rmin : ℝ) ≤ d := by norm_cast
  have q2 : d ≤ rmax ↔ (d : ℝ) ≤ rmax := by norm_cast
  have q3 : 1 / 2 ^ 26 < f ↔ (1 / 2 ^ 26 : ℝ) < f := by
    have : (1 / 2 ^ 26 : ℝ) = ((1 / 2 ^ 26 : ℚ) : ℝ) := by push_cast; rfl
    rw [this]
    norm_cast
  rw [q1, q2, q3]
  clear q1 q2 q3 h0
  generalize (rmin : ℝ) = m at *
  generalize (rmax : ℝ) = M at *
  generalize (d : ℝ) = d at *
  generalize (f : ℝ) = f at *
  norm_num
  constructor
  · intro a1 a2 a3
    have hm : 0 ≤ M := by
      by_contra hc
      rw [not_le] at hc
      nlinarith
    refine ⟨?_, ?_, ?_⟩ <;> nlinarith [hd.1, hd.2, hf.1, hf.2]
  · intro a1 a2 a3
    have hm : 0 ≤ M := hn.trans a2
    refine ⟨?_, ?_, ?_⟩ <;> nlinarith [hd.1, hd.2, hf.1, hf.2]

/-! ### Images in a cell with right angles -/

/-- The image of the origin `n` cells away along the second edge is at the distance of the rounded product of `n` and the edge. -/
theorem image_second_edge (hs : SqrtOk sq) (cosl : ℚ → ℚ) {a b c : ℚ} (ha : IsDouble a) (hb : IsDouble b) (hc : IsDouble c) (ha0 : 0 < a) (n : ℚ) :
    distanceF fl64 sq (fun _ => 0) (imageF fl64 (setLatParF fl64 sq cosl unitF a b c 90 90 90) ![0, n, 0] (fun _ => 0)) = |fl64 (n * b)| := by
  have i : ∀ y, fl64 (fl64 y) = fl64 y := fun y => isDouble_exact (fl64_isDouble y)
  have h := (right_cartesian sq cosl (sqrt_one hs) ha hb hc ha0 ![0, n, 0]).1
  have e : imageF fl64 (setLatParF fl64 sq cosl unitF a b c 90 90 90) ![0, n, 0] (fun _ => 0) = ![0, fl64 (n * b), 0] := by
    unfold imageF
    rw [show cartesianF fl64 (setLatParF fl64 sq cosl unitF a b c 90 90 90) ![0, n, 0] = _ from h]
    funext j
    fin_cases j <;> simp [fl64_zero, i]
  rw [e, distance_axis hs _ _ 1 (fun j hj => by fin_cases j <;> simp at hj ⊢)]
  simp [fl64_neg, i]

/-- The same along the first edge, where the length is that of C107. -/
theorem image_first_edge (hs : SqrtOk sq) (cosl : ℚ → ℚ) {a b c : ℚ} (ha : IsDouble a) (hb : IsDouble b) (hc : IsDouble c) (ha0 : 0 < a) (n : ℚ) :
    distanceF fl64 sq (fun _ => 0) (imageF fl64 (setLatParF fl64 sq cosl unitF a b c 90 90 90) ![n, 0, 0] (fun _ => 0)) = |fl64 (n * twice a)| := by
  have i : ∀ y, fl64 (fl64 y) = fl64 y := fun y => isDouble_exact (fl64_isDouble y)
  have h := (right_cartesian sq cosl (sqrt_one hs) ha hb hc ha0 ![n, 0, 0]).1
  have e : imageF fl64 (setLatParF fl64 sq cosl unitF a b c 90 90 90) ![n, 0, 0] (fun _ => 0) = ![fl64 (n * twice a), 0, 0] := by
    unfold imageF
    rw [show cartesianF fl64 (setLatParF fl64 sq cosl unitF a b c 90 90 90) ![n, 0, 0] = _ from h]
    funext j
    fin_cases j <;> simp [fl64_zero, i]
  rw [e, distance_axis hs _ _ 0 (fun j hj => by fin_cases j <;> simp at hj ⊢)]
  simp [fl64_neg, i]

/-- In a cube with edge 49 an atom at the origin has neighbours at its images along the second edge within 49, but not at those along the first. -/
theorem neighbours_bug (hs : SqrtOk sq) (cosl : ℚ → ℚ) : let L := setLatParF fl64 sq cosl unitF 49 49 49 90 90 90
    (∀ s : ℚ, s = 1 ∨ s = -1 → bondKeptF fl64 sq 0 49 (fun _ => 0) (imageF fl64 L ![0, s, 0] (fun _ => 0))) ∧
    ∀ s : ℚ, s = 1 ∨ s = -1 → ¬ bondKeptF fl64 sq 0 49 (fun _ => 0) (imageF fl64 L ![s, 0, 0] (fun _ => 0)) := by
  intro L
  have d : IsDouble 49 := ⟨49, 0, by norm_num, by norm_num⟩
  have f := isDouble_exact d
  have t : (49 : ℚ) < fl64 (1 * twice 49) := by decide +kernel
  rw [one_mul] at t
  constructor
  · intro s h
    rw [bond_kept_iff hs, image_second_edge hs cosl d d d (by norm_num)]
    have : |fl64 (s * 49)| = 49 := by
      rcases h with rfl | rfl
      · rw [one_mul, f]; norm_num
      · rw [neg_one_mul, fl64_neg, f]; norm_num
    rw [this, f]
    norm_num
  · intro s h
    rw [bond_kept_iff hs, image_first_edge hs cosl d d d (by norm_num)]
    have : 49 < |fl64 (s * twice 49)| := by
      rcases h with rfl | rfl
      · rw [one_mul, abs_of_pos (by linarith)]; exact t
      · rw [neg_one_mul, fl64_neg, abs_neg, abs_of_pos (by linarith)]; exact t
    rintro ⟨-, h2, -⟩
    exact absurd h2 (not_le.2 this)

/-- For atoms that are not at the origin the distance of an image along the second edge need not be the edge, either: with the edge 1/10 (rounded) and an atom at 7/10 it is nearer. -/
theorem image_rounding_bug (hs : SqrtOk sq) (cosl : ℚ → ℚ) : let b := fl64 (1 / 10); let r : V3 := ![0, fl64 (7 / 10), 0]
    let L := setLatParF fl64 sq cosl unitF 1 b 1 90 90 90
    distanceF fl64 sq r (imageF fl64 L ![0, 1, 0] r) < b := by
  intro b r L
  have d1 : IsDouble 1 := one_isDouble
  have db : IsDouble b := fl64_isDouble _
  have h := (right_cartesian sq cosl (sqrt_one hs) d1 db d1 (by norm_num) ![0, 1, 0]).1
  have e : imageF fl64 L ![0, 1, 0] r = ![0, fl64 (fl64 (1 * b) + fl64 (7 / 10)), 0] := by
    unfold imageF
    rw [show cartesianF fl64 L ![0, 1, 0] = _ from h]
    funext j
    fin_cases j <;> simp [fl64_zero, r]
  rw [e, distance_axis hs _ _ 1 (fun j hj => by fin_cases j <;> simp [r] at hj ⊢)]
  show |fl64 (fl64 (7 / 10) - fl64 (fl64 (1 * fl64 (1 / 10)) + fl64 (7 / 10)))| < fl64 (1 / 10)
  decide +kernel

end Verif.Double
