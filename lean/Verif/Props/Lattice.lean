import Verif.Lemmas.Lattice
/-! C30 - C33: the lattice. -/
namespace Verif.Lattice
open Verif.R3 Verif.MathUtils Classical

/-! ### C30 -/

theorem dot_cartesian (L : Lat) (hL : Good L) (u v : V3) :
    L.dot u v = V3.dot (L.cartesian u) (L.cartesian v) := by
  unfold Lat.dot Lat.cartesian
  rw [← hL.gram]
  simp only [M3.mul, M3.trans, M3.vecMul, V3.dot, M3.c0, M3.c1, M3.c2]; ring

theorem norm_cartesian (L : Lat) (hL : Good L) (u : V3) : L.norm u = V3.norm (L.cartesian u) := by
  unfold Lat.norm V3.norm; rw [dot_cartesian L hL]

/-- C30. Conversion to Cartesian coordinates and back, either way round, is the identity for every
lattice obtained by successful calls. -/
theorem cartesian_fractional (L : Lat) (h : Reachable L) (v : V3) :
    L.cartesian (L.fractional v) = v ∧ L.fractional (L.cartesian v) = v := by
  have hL := good_of_reachable L h
  unfold Lat.cartesian Lat.fractional
  rw [hL.rec_eq, ← M3.vecMul_mul, ← M3.vecMul_mul, M3.inverse_mul _ hL.det_pos.ne',
    M3.mul_inverse _ hL.det_pos.ne', M3.vecMul_one]
  exact ⟨rfl, rfl⟩

/-- C30. The lattice dot product, norm, distance and angle of fractional vectors are those of
their Cartesian images. -/
theorem lattice_isometry (L : Lat) (h : Reachable L) (u v : V3) :
    L.dot u v = V3.dot (L.cartesian u) (L.cartesian v) ∧
    L.norm u = V3.norm (L.cartesian u) ∧
    L.distance u v = V3.distance (L.cartesian u) (L.cartesian v) ∧
    L.anglerad u v = Real.arccos (V3.dot (L.cartesian u) (L.cartesian v) /
      (V3.norm (L.cartesian u) * V3.norm (L.cartesian v))) ∧
    L.angledeg u v = L.anglerad u v * 180 / Real.pi := by
  have hL := good_of_reachable L h
  refine ⟨dot_cartesian L hL u v, norm_cartesian L hL u, ?_, ?_, ?_⟩
  · unfold Lat.distance V3.distance
    rw [norm_cartesian L hL]
    unfold Lat.cartesian
    rw [M3.vecMul_sub]
  · unfold Lat.anglerad
    rw [dot_cartesian L hL, norm_cartesian L hL, norm_cartesian L hL]
  · unfold Lat.angledeg Lat.anglerad
    rw [acosd_eq_arccos]

/-- C30. The base rotation preserves dot products (hence lengths), and the base is the standard
base rotated. -/
theorem baserot_isometry (L : Lat) (h : Reachable L) (u v : V3) :
    V3.dot (M3.vecMul u L.baserot) (M3.vecMul v L.baserot) = V3.dot u v ∧
    V3.norm (M3.vecMul u L.baserot) = V3.norm u ∧
    L.base = M3.mul L.stdbase L.baserot := by
  have hL := good_of_reachable L h
  have key : ∀ u v, V3.dot (M3.vecMul u L.baserot) (M3.vecMul v L.baserot) = V3.dot u v := by
    intro u v
    have hr := hL.rot
    have e1 : V3.dot (M3.vecMul u L.baserot) (M3.vecMul v L.baserot)
        = V3.dot (M3.vecMul u (M3.mul L.baserot (M3.trans L.baserot))) v := by
      simp only [M3.mul, M3.trans, M3.vecMul, V3.dot, M3.c0, M3.c1, M3.c2]; ring
    rw [e1, hr, M3.vecMul_one]
  refine ⟨key u v, ?_, hL.split⟩
  unfold V3.norm; rw [key]

/-- C30. The cell parameters reported by the lattice are those of its base vectors, and its volume
is the determinant of the base. -/
theorem parameters_of_base (L : Lat) (h : Reachable L) :
    L.a = V3.norm L.base.r0 ∧ L.b = V3.norm L.base.r1 ∧ L.c = V3.norm L.base.r2 ∧
    Real.cos (L.alpha * Real.pi / 180) = V3.dot L.base.r1 L.base.r2 / (V3.norm L.base.r1 * V3.norm L.base.r2) ∧
    Real.cos (L.beta * Real.pi / 180) = V3.dot L.base.r0 L.base.r2 / (V3.norm L.base.r0 * V3.norm L.base.r2) ∧
    Real.cos (L.gamma * Real.pi / 180) = V3.dot L.base.r0 L.base.r1 / (V3.norm L.base.r0 * V3.norm L.base.r1) ∧
    L.volume = M3.det L.base := by
  have hL := good_of_reachable L h
  have g := hL.gram
  rw [hL.metrics_eq] at g
  have g00 := congrArg (fun m => m.r0.x) g
  have g11 := congrArg (fun m => m.r1.y) g
  have g22 := congrArg (fun m => m.r2.z) g
  have g01 := congrArg (fun m => m.r0.y) g
  have g02 := congrArg (fun m => m.r0.z) g
  have g12 := congrArg (fun m => m.r1.z) g
  simp only [M3.mul, M3.trans, M3.vecMul, M3.c0, M3.c1, M3.c2] at g00 g11 g22 g01 g02 g12
  have na : L.a = V3.norm L.base.r0 := by
    unfold V3.norm; rw [g00]; exact (Real.sqrt_mul_self hL.a_pos.le).symm
  have nb : L.b = V3.norm L.base.r1 := by
    unfold V3.norm; rw [g11]; exact (Real.sqrt_mul_self hL.b_pos.le).symm
  have nc : L.c = V3.norm L.base.r2 := by
    unfold V3.norm; rw [g22]; exact (Real.sqrt_mul_self hL.c_pos.le).symm
  have hvol : L.volume = M3.det L.base := by
    have hv : 0 < L.volume := by
      unfold Lat.volume
      have := Real.sqrt_pos.2 hL.v_pos
      have := hL.a_pos
      have := hL.b_pos
      have := hL.c_pos
      unfold Lat.volumeNormal
      positivity
    nlinarith [hL.det_eq, hL.det_pos, hv, mul_pos hL.det_pos hv]
  have ha := hL.a_pos
  have hb := hL.b_pos
  have hc := hL.c_pos
  refine ⟨na, nb, nc, ?_, ?_, ?_, hvol⟩
  · rw [← cosd_eq_cos, hL.cosa, g12, ← nb, ← nc]; field_simp
  · rw [← cosd_eq_cos, hL.cosb, g02, ← na, ← nc]; field_simp
  · rw [← cosd_eq_cos, hL.cosg, g01, ← na, ← nb]; field_simp

/-- C30. Displacement tensors: conversion to Cartesian form and back is the identity both ways. -/
theorem cartesianMatrix_fractionalMatrix (L : Lat) (h : Reachable L) (m : M3) :
    L.fractionalMatrix (L.cartesianMatrix m) = m ∧ L.cartesianMatrix (L.fractionalMatrix m) = m := by
  have hL := good_of_reachable L h
  have hV : 0 < L.volumeNormal := Real.sqrt_pos.2 hL.v_pos
  have ha : L.ar ≠ 0 := by
    rw [hL.ar_eq]; exact (div_pos hL.sa_pos (mul_pos hL.a_pos hV)).ne'
  have hb : L.br ≠ 0 := by
    rw [hL.br_eq]; exact (div_pos hL.sb_pos (mul_pos hL.b_pos hV)).ne'
  have hc : L.cr ≠ 0 := by
    rw [hL.cr_eq]; exact (div_pos hL.sg_pos (mul_pos hL.c_pos hV)).ne'
  have h1 : M3.mul L.base L.recbase = M3.one := by
    rw [hL.rec_eq]; exact M3.mul_inverse _ hL.det_pos.ne'
  have h2 : M3.mul L.recbase L.base = M3.one := by
    rw [hL.rec_eq]; exact M3.inverse_mul _ hL.det_pos.ne'
  have n1 : M3.mul L.normbase L.recnormbase = M3.one := by
    rw [hL.norm_eq, hL.recnorm_eq]
    have q := h1
    simp only [M3.mul, M3.vecMul, V3.dot, M3.c0, M3.c1, M3.c2, M3.one, M3.mk.injEq, V3.mk.injEq] at q
    obtain ⟨⟨q1, q2, q3⟩, ⟨q4, q5, q6⟩, q7, q8, q9⟩ := q
    ext <;> simp only [M3.mul, M3.vecMul, V3.dot, M3.c0, M3.c1, M3.c2, M3.one, V3.smul] <;> field_simp
    · linear_combination q1
    · linear_combination L.ar * q2
    · linear_combination L.ar * q3
    · linear_combination L.br * q4
    · linear_combination q5
    · linear_combination L.br * q6
    · linear_combination L.cr * q7
    · linear_combination L.cr * q8
    · linear_combination q9
  have n2 : M3.mul L.recnormbase L.normbase = M3.one := by
    rw [hL.norm_eq, hL.recnorm_eq]
    have q := h2
    simp only [M3.mul, M3.vecMul, V3.dot, M3.c0, M3.c1, M3.c2, M3.one, M3.mk.injEq, V3.mk.injEq] at q
    obtain ⟨⟨q1, q2, q3⟩, ⟨q4, q5, q6⟩, q7, q8, q9⟩ := q
    ext <;> simp only [M3.mul, M3.vecMul, V3.dot, M3.c0, M3.c1, M3.c2, M3.one, V3.smul] <;> field_simp
    · linear_combination q1
    · linear_combination q2
    · linear_combination q3
    · linear_combination q4
    · linear_combination q5
    · linear_combination q6
    · linear_combination q7
    · linear_combination q8
    · linear_combination q9
  unfold Lat.fractionalMatrix Lat.cartesianMatrix
  constructor
  · rw [M3.mul_assoc, M3.mul_assoc, n1, M3.mul_one, ← M3.mul_assoc, ← M3.trans_mul, n1, M3.trans_one,
      M3.one_mul]
  · rw [M3.mul_assoc, M3.mul_assoc, n2, M3.mul_one, ← M3.mul_assoc, ← M3.trans_mul, n2, M3.trans_one,
      M3.one_mul]

/-- C30. Setting the lattice's own parameters again changes nothing in its base, orientation
included. -/
theorem setLatPar_self (L : Lat) (h : Reachable L) :
    (setLatPar L L.a L.b L.c L.alpha L.beta L.gamma).base = L.base := by
  have hL := good_of_reachable L h
  unfold setLatPar
  rw [hL.cosa, hL.cosb, hL.cosg, hL.sina, hL.sinb, hL.sing]
  show M3.mul L.updateReciprocal.updateMetrics.updateStandardBase.stdbase L.baserot = L.base
  rw [← hL.std_eq, ← hL.split]

/-! ### C31 -/

theorem snap_range (x : ℝ) (h0 : 0 ≤ x) (h1 : x < 1) :
    0 ≤ snap x ∧ snap x < 1 - BondGen.sqrtEps := by
  unfold snap eps_eq
  have he : BondGen.sqrtEps = 1 / 2 ^ 26 := rfl
  split
  · rw [he]; norm_num
  · rename_i h
    rw [not_le, abs_of_nonpos (by linarith)] at h
    exact ⟨h0, by linarith⟩

theorem fract_range (x : ℝ) : 0 ≤ x - (⌊x⌋ : ℝ) ∧ x - (⌊x⌋ : ℝ) < 1 := by
  have h1 := Int.floor_le x
  have h2 := Int.lt_floor_add_one x
  constructor <;> linarith

/-- C31. Every coordinate is moved into [0, 1). -/
theorem ucvFractional_range (v : V3) :
    (0 ≤ (ucvFractional v).x ∧ (ucvFractional v).x < 1) ∧
    (0 ≤ (ucvFractional v).y ∧ (ucvFractional v).y < 1) ∧
    (0 ≤ (ucvFractional v).z ∧ (ucvFractional v).z < 1) := by
  have he : 0 < BondGen.sqrtEps := by unfold BondGen.sqrtEps; norm_num
  have key : ∀ x : ℝ, 0 ≤ snap (x - (⌊x⌋ : ℝ)) ∧ snap (x - (⌊x⌋ : ℝ)) < 1 := by
    intro x
    obtain ⟨h1, h2⟩ := fract_range x
    obtain ⟨h3, h4⟩ := snap_range _ h1 h2
    exact ⟨h3, by linarith⟩
  exact ⟨key v.x, key v.y, key v.z⟩

/-- C31. The shift of one coordinate: by an integer exactly, unless the coordinate lies within
2^-26 below an integer, in which case it becomes 0. -/
theorem snap_shift (x : ℝ) :
    (∃ k : ℤ, snap (x - (⌊x⌋ : ℝ)) = x - k) ∨
    (∃ k : ℤ, snap (x - (⌊x⌋ : ℝ)) = 0 ∧ (k : ℝ) - BondGen.sqrtEps ≤ x ∧ x < k) := by
  unfold snap eps_eq
  split
  · rename_i h
    right
    refine ⟨⌊x⌋ + 1, rfl, ?_, ?_⟩
    · rw [abs_le] at h; push_cast; linarith
    · have := Int.lt_floor_add_one x; push_cast; linarith
  · exact Or.inl ⟨⌊x⌋, rfl⟩

/-- C31. `ucvFractional` shifts every coordinate by an integer, up to at most 2^-26; exactly when no
coordinate lies within 2^-26 below an integer. -/
theorem ucvFractional_shift (v : V3) :
    ∃ i j k : ℤ,
      |(ucvFractional v).x - (v.x - i)| ≤ BondGen.sqrtEps ∧
      |(ucvFractional v).y - (v.y - j)| ≤ BondGen.sqrtEps ∧
      |(ucvFractional v).z - (v.z - k)| ≤ BondGen.sqrtEps ∧
      ((∀ n : ℤ, ∀ t ∈ [v.x, v.y, v.z], ¬ ((n : ℝ) - BondGen.sqrtEps ≤ t ∧ t < n)) →
        ucvFractional v = ⟨v.x - i, v.y - j, v.z - k⟩) := by
  have key : ∀ x : ℝ, ∃ k : ℤ, |snap (x - (⌊x⌋ : ℝ)) - (x - k)| ≤ BondGen.sqrtEps ∧
      ((∀ n : ℤ, ¬ ((n : ℝ) - BondGen.sqrtEps ≤ x ∧ x < n)) → snap (x - (⌊x⌋ : ℝ)) = x - k) := by
    intro x
    have he : 0 ≤ BondGen.sqrtEps := by unfold BondGen.sqrtEps; norm_num
    rcases snap_shift x with ⟨k, hk⟩ | ⟨k, hk, h1, h2⟩
    · exact ⟨k, by rw [hk, sub_self, abs_zero]; exact he, fun _ => hk⟩
    · refine ⟨k, ?_, fun h => absurd ⟨h1, h2⟩ (h k)⟩
      rw [hk, abs_le]; constructor <;> linarith
  obtain ⟨i, hi, hi'⟩ := key v.x
  obtain ⟨j, hj, hj'⟩ := key v.y
  obtain ⟨k, hk, hk'⟩ := key v.z
  refine ⟨i, j, k, hi, hj, hk, fun h => ?_⟩
  have h1 := hi' fun n => h n v.x (by simp)
  have h2 := hj' fun n => h n v.y (by simp)
  have h3 := hk' fun n => h n v.z (by simp)
  show (⟨_, _, _⟩ : V3) = _
  rw [V3.mk.injEq]
  exact ⟨h1, h2, h3⟩

/-- C31. Wrapping twice is wrapping once. -/
theorem ucvFractional_idem (v : V3) : ucvFractional (ucvFractional v) = ucvFractional v := by
  have he : 0 < BondGen.sqrtEps := by unfold BondGen.sqrtEps; norm_num
  have key : ∀ x : ℝ, snap (snap (x - (⌊x⌋ : ℝ)) - (⌊snap (x - (⌊x⌋ : ℝ))⌋ : ℝ)) = snap (x - (⌊x⌋ : ℝ)) := by
    intro x
    obtain ⟨h1, h2⟩ := fract_range x
    obtain ⟨h3, h4⟩ := snap_range _ h1 h2
    have : ⌊snap (x - (⌊x⌋ : ℝ))⌋ = 0 := by rw [Int.floor_eq_zero_iff]; exact ⟨h3, by linarith⟩
    rw [this]
    simp only [Int.cast_zero, sub_zero]
    generalize snap (x - (⌊x⌋ : ℝ)) = y at *
    unfold snap eps_eq
    rw [if_neg]
    rw [not_le, abs_of_nonpos (by linarith)]; linarith
  show (⟨_, _, _⟩ : V3) = ⟨_, _, _⟩
  rw [V3.mk.injEq]
  exact ⟨key v.x, key v.y, key v.z⟩

/-- C31. Wrapping forgets lattice translations: points that differ by integers are wrapped to the
same point. -/
theorem ucvFractional_periodic (v : V3) (i j k : ℤ) :
    ucvFractional (V3.add v ⟨i, j, k⟩) = ucvFractional v := by
  have key : ∀ (x : ℝ) (n : ℤ), snap (x + n - (⌊x + n⌋ : ℝ)) = snap (x - (⌊x⌋ : ℝ)) := by
    intro x n
    rw [Int.floor_add_intCast]; congr 1; push_cast; ring
  show (⟨_, _, _⟩ : V3) = ⟨_, _, _⟩
  rw [V3.mk.injEq]
  exact ⟨key v.x i, key v.y j, key v.z k⟩

/-- C31. `ucvCartesian` moves its argument by a lattice vector, up to a fractional error of at most
2^-26 in each coordinate; exactly when no fractional coordinate is within 2^-26 below an
integer. -/
theorem ucvCartesian_translation (L : Lat) (h : Reachable L) (v : V3) :
    ∃ i j k : ℤ, ∃ e : V3, |e.x| ≤ BondGen.sqrtEps ∧ |e.y| ≤ BondGen.sqrtEps ∧ |e.z| ≤ BondGen.sqrtEps ∧
      L.ucvCartesian v = V3.add (V3.sub v (L.cartesian ⟨i, j, k⟩)) (L.cartesian e) ∧
      ((∀ n : ℤ, ∀ t ∈ [(L.fractional v).x, (L.fractional v).y, (L.fractional v).z],
        ¬ ((n : ℝ) - BondGen.sqrtEps ≤ t ∧ t < n)) →
        L.ucvCartesian v = V3.sub v (L.cartesian ⟨i, j, k⟩)) := by
  obtain ⟨i, j, k, h1, h2, h3, h4⟩ := ucvFractional_shift (L.fractional v)
  generalize hf : L.fractional v = f at *
  have hc : v = L.cartesian f := by rw [← hf]; exact (cartesian_fractional L h v).1.symm
  refine ⟨i, j, k, ⟨(ucvFractional f).x - (f.x - i), (ucvFractional f).y - (f.y - j),
    (ucvFractional f).z - (f.z - k)⟩, h1, h2, h3, ?_, fun hn => ?_⟩
  · unfold Lat.ucvCartesian
    rw [hf, hc]
    unfold Lat.cartesian
    rw [← M3.vecMul_sub, ← M3.vecMul_add]
    congr 1
    ext <;> simp only [V3.add, V3.sub] <;> ring
  · unfold Lat.ucvCartesian
    rw [hf, h4 hn, hc]
    unfold Lat.cartesian
    rw [← M3.vecMul_sub]
    rfl

/-- The round-off rule does move points: 1 - 2^-27 becomes 0, which is no integer shift. -/
theorem ucvFractional_not_exact : (ucvFractional ⟨1 - 1 / 2 ^ 27, 0, 0⟩).x = 0 ∧
    ∀ k : ℤ, (0 : ℝ) ≠ (1 - 1 / 2 ^ 27) - k := by
  have hfl : ⌊(1 - 1 / 2 ^ 27 : ℝ)⌋ = 0 := by
    rw [Int.floor_eq_zero_iff]; constructor <;> norm_num
  constructor
  · show snap ((1 - 1 / 2 ^ 27) - (⌊(1 - 1 / 2 ^ 27 : ℝ)⌋ : ℝ)) = 0
    rw [hfl]
    unfold snap eps_eq BondGen.sqrtEps
    rw [if_pos]
    rw [abs_le]; constructor <;> norm_num
  · intro k hk
    have : (2 ^ 27 : ℝ) * k = 2 ^ 27 - 1 := by linarith
    have h2 : (2 ^ 27 : ℤ) * k = 2 ^ 27 - 1 := by exact_mod_cast this
    omega

/-! ### C32 -/

/-- C32 (violated). A rejected base: `setLatBase` with degenerate vectors on the default lattice
throws, and afterwards the conversions disagree: a vector converted to fractional coordinates and
back is no longer itself, whereas it was before the call. -/
theorem setLatBase_failure_corrupts (L0 : Lat) :
    let L := create L0 1 1 1 90 90 90
    let M := setLatBase L V3.zero V3.zero V3.zero
    M.2 = false ∧ L.cartesian (L.fractional ⟨1, 0, 0⟩) = ⟨1, 0, 0⟩ ∧
      M.1.cartesian (M.1.fractional ⟨1, 0, 0⟩) ≠ ⟨1, 0, 0⟩ := by
  intro L M
  have c90 : cosd 90 = 0 := by have := (cosd_exact 0).2.2.1; simpa using this
  have hv : ValidPar 1 1 1 90 90 90 := by
    unfold ValidPar vnormSq; rw [c90]; norm_num
  have hM : M = ({ L with base := ⟨V3.zero, V3.zero, V3.zero⟩ }, false) := by
    show setLatBase L V3.zero V3.zero V3.zero = _
    unfold setLatBase
    simp only [det_zero_a]
    rw [if_pos (by norm_num)]
  refine ⟨by rw [hM], (cartesian_fractional L (Reachable.create L0 _ _ _ _ _ _ hv) _).1, ?_⟩
  rw [hM]
  intro hc
  have := congrArg V3.x hc
  simp [Lat.cartesian, M3.vecMul, V3.dot, M3.c0, V3.zero] at this

/-- C32, what does hold: a rejected base changes only the stored base; everything else is kept. -/
theorem setLatBase_failure_partial (L : Lat) (va vb vc : V3) (hf : (setLatBase L va vb vc).2 = false) :
    (setLatBase L va vb vc).1 = { L with base := ⟨va, vb, vc⟩ } := by
  unfold setLatBase at *
  simp only at *
  split
  · rfl
  · rename_i h1
    split
    · rfl
    · rename_i h2
      simp only [h1, h2, if_false, Bool.true_eq_false] at hf

/-- C32, recovery: `setLatPar` with the lattice's parameters after a rejected base restores all
conversions as they were before the failed call. -/
theorem setLatPar_recovers (L : Lat) (h : Reachable L) (va vb vc : V3)
    (hf : (setLatBase L va vb vc).2 = false) (v : V3) :
    let M := (setLatBase L va vb vc).1
    let N := setLatPar M L.a L.b L.c L.alpha L.beta L.gamma
    N.cartesian v = L.cartesian v ∧ N.fractional v = L.fractional v ∧ N.norm v = L.norm v := by
  intro M N
  have hM : M = { L with base := ⟨va, vb, vc⟩ } := setLatBase_failure_partial L va vb vc hf
  have hb : N.base = L.base := by
    have := setLatPar_self L h
    show (setLatPar M L.a L.b L.c L.alpha L.beta L.gamma).base = _
    rw [hM]; exact this
  have hL := good_of_reachable L h
  have hr : N.recbase = L.recbase := by
    rw [hL.rec_eq, ← hb]; rfl
  have hm : N.metrics = L.metrics := by
    rw [hL.metrics_eq, ← hL.cosa, ← hL.cosb, ← hL.cosg]; rfl
  refine ⟨?_, ?_, ?_⟩
  · unfold Lat.cartesian; rw [hb]
  · unfold Lat.fractional; rw [hr]
  · unfold Lat.norm Lat.dot; rw [hm]

/-- C32. `setLatBase` accepts exactly the right-handed bases of determinant at least 1e-8, and then
the base vectors are the given ones. -/
theorem setLatBase_accepts (L : Lat) (va vb vc : V3) :
    ((setLatBase L va vb vc).2 = true ↔ 1 / 10 ^ 8 ≤ M3.det ⟨va, vb, vc⟩) ∧
    (setLatBase L va vb vc).1.base = ⟨va, vb, vc⟩ := by
  refine ⟨setLatBase_ok L va vb vc, ?_⟩
  unfold setLatBase
  simp only
  split
  · rfl
  · split <;> rfl

/-! ### C33 -/

theorem norm_neg (L : Lat) (x y z : ℝ) : L.norm ⟨-x, -y, -z⟩ = L.norm ⟨x, y, z⟩ := by
  unfold Lat.norm Lat.dot; congr 1; ring

theorem norm_add_le (L : Lat) (hL : Good L) (u v : V3) : L.norm (V3.add u v) ≤ L.norm u + L.norm v := by
  rw [norm_cartesian L hL, norm_cartesian L hL, norm_cartesian L hL]
  unfold Lat.cartesian
  rw [M3.vecMul_add]; exact V3.norm_add_le _ _

theorem norm_smul (L : Lat) (hL : Good L) (t : ℝ) (u : V3) : L.norm (V3.smul t u) = |t| * L.norm u := by
  rw [norm_cartesian L hL, norm_cartesian L hL]
  unfold Lat.cartesian
  rw [M3.vecMul_smul, V3.norm_smul]

/-- Convexity along a segment. -/
theorem norm_convex (L : Lat) (hL : Good L) (u v w : V3) (t M : ℝ) (h0 : -1 ≤ t) (h1 : t ≤ 1)
    (hu : L.norm u ≤ M) (hv : L.norm v ≤ M)
    (hw : w = V3.add (V3.smul ((1 + t) / 2) u) (V3.smul ((1 - t) / 2) v)) : L.norm w ≤ M := by
  rw [hw]
  refine le_trans (norm_add_le L hL _ _) ?_
  rw [norm_smul L hL, norm_smul L hL, abs_of_nonneg (by linarith), abs_of_nonneg (by linarith)]
  nlinarith

theorem maxDiagonal_ge (L : Lat) (d : V3) (hd : d ∈ ucDiagonals) : L.norm d ≤ L.ucMaxDiagonalLength := by
  have key : ∀ (l : List V3) (acc : ℝ × V3), (acc.1 = L.norm acc.2 ∨ acc.1 < 0) →
      let r := l.foldl (fun (acc : ℝ × V3) d => if L.norm d > acc.1 then (L.norm d, d) else acc) acc
      (r.1 = L.norm r.2 ∨ r.1 < 0) ∧ acc.1 ≤ r.1 ∧ ∀ d ∈ l, L.norm d ≤ r.1 := by
    intro l
    induction l with
    | nil => intro acc h; exact ⟨h, le_rfl, by simp⟩
    | cons d l ih =>
      intro acc h
      simp only [List.foldl_cons]
      by_cases hc : L.norm d > acc.1
      · rw [if_pos hc]
        obtain ⟨h1, h2, h3⟩ := ih (L.norm d, d) (Or.inl rfl)
        refine ⟨h1, le_trans hc.le h2, ?_⟩
        intro e he
        rcases List.mem_cons.1 he with rfl | he
        · exact h2
        · exact h3 e he
      · rw [if_neg hc]
        obtain ⟨h1, h2, h3⟩ := ih acc h
        refine ⟨h1, h2, ?_⟩
        intro e he
        rcases List.mem_cons.1 he with rfl | he
        · exact le_trans (not_lt.1 hc) h2
        · exact h3 e he
  obtain ⟨h1, _, h3⟩ := key ucDiagonals (-1, V3.zero) (Or.inr (by norm_num))
  have h4 := h3 d hd
  rcases h1 with h1 | h1
  · unfold Lat.ucMaxDiagonalLength Lat.ucMaxDiagonal
    rw [← h1]; exact h4
  · have : 0 ≤ L.norm d := Real.sqrt_nonneg _
    linarith

/-- A vector with components in [-1, 1] is no longer than the largest diagonal. -/
theorem norm_le_maxDiagonal (L : Lat) (hL : Good L) (d : V3) (hx : -1 ≤ d.x ∧ d.x ≤ 1)
    (hy : -1 ≤ d.y ∧ d.y ≤ 1) (hz : -1 ≤ d.z ∧ d.z ≤ 1) : L.norm d ≤ L.ucMaxDiagonalLength := by
  have ppp : L.norm ⟨1, 1, 1⟩ ≤ L.ucMaxDiagonalLength := maxDiagonal_ge L _ (by simp [ucDiagonals])
  have mpp : L.norm ⟨-1, 1, 1⟩ ≤ L.ucMaxDiagonalLength := maxDiagonal_ge L _ (by simp [ucDiagonals])
  have pmp : L.norm ⟨1, -1, 1⟩ ≤ L.ucMaxDiagonalLength := maxDiagonal_ge L _ (by simp [ucDiagonals])
  have ppm : L.norm ⟨1, 1, -1⟩ ≤ L.ucMaxDiagonalLength := maxDiagonal_ge L _ (by simp [ucDiagonals])
  have mmm : L.norm ⟨-1, -1, -1⟩ ≤ L.ucMaxDiagonalLength := by rw [norm_neg]; exact ppp
  have pmm : L.norm ⟨1, -1, -1⟩ ≤ L.ucMaxDiagonalLength := by
    have := norm_neg L (-1) 1 1; rw [neg_neg] at this; rw [this]; exact mpp
  have mpm : L.norm ⟨-1, 1, -1⟩ ≤ L.ucMaxDiagonalLength := by
    have := norm_neg L 1 (-1) 1; rw [neg_neg] at this; rw [this]; exact pmp
  have mmp : L.norm ⟨-1, -1, 1⟩ ≤ L.ucMaxDiagonalLength := by
    have := norm_neg L 1 1 (-1); rw [neg_neg] at this; rw [this]; exact ppm
  have stepz : ∀ x y : ℝ, L.norm ⟨x, y, 1⟩ ≤ L.ucMaxDiagonalLength →
      L.norm ⟨x, y, -1⟩ ≤ L.ucMaxDiagonalLength → L.norm ⟨x, y, d.z⟩ ≤ L.ucMaxDiagonalLength :=
    fun x y h1 h2 => norm_convex L hL _ _ _ d.z _ hz.1 hz.2 h1 h2
      (by ext <;> simp only [V3.add, V3.smul] <;> ring)
  have stepy : ∀ x : ℝ, L.norm ⟨x, 1, d.z⟩ ≤ L.ucMaxDiagonalLength →
      L.norm ⟨x, -1, d.z⟩ ≤ L.ucMaxDiagonalLength → L.norm ⟨x, d.y, d.z⟩ ≤ L.ucMaxDiagonalLength :=
    fun x h1 h2 => norm_convex L hL _ _ _ d.y _ hy.1 hy.2 h1 h2
      (by ext <;> simp only [V3.add, V3.smul] <;> ring)
  exact norm_convex L hL _ _ _ d.x _ hx.1 hx.2
    (stepy 1 (stepz 1 1 ppp ppm) (stepz 1 (-1) pmp pmm))
    (stepy (-1) (stepz (-1) 1 mpp mpm) (stepz (-1) (-1) mmp mmm))
    (by ext <;> simp only [V3.add, V3.smul] <;> ring)

/-- C33. Any two points of the closed unit cell are at most `ucMaxDiagonalLength` apart. -/
theorem ucMaxDiagonal_bounds (L : Lat) (h : Reachable L) (u v : V3)
    (hu : (0 ≤ u.x ∧ u.x ≤ 1) ∧ (0 ≤ u.y ∧ u.y ≤ 1) ∧ (0 ≤ u.z ∧ u.z ≤ 1))
    (hv : (0 ≤ v.x ∧ v.x ≤ 1) ∧ (0 ≤ v.y ∧ v.y ≤ 1) ∧ (0 ≤ v.z ∧ v.z ≤ 1)) :
    V3.distance (L.cartesian u) (L.cartesian v) ≤ L.ucMaxDiagonalLength := by
  obtain ⟨⟨a1, a2⟩, ⟨a3, a4⟩, a5, a6⟩ := hu
  obtain ⟨⟨b1, b2⟩, ⟨b3, b4⟩, b5, b6⟩ := hv
  rw [← (lattice_isometry L h u v).2.2.1]
  refine norm_le_maxDiagonal L (good_of_reachable L h) (V3.sub u v) ⟨?_, ?_⟩ ⟨?_, ?_⟩ ⟨?_, ?_⟩ <;>
    simp only [V3.sub] <;> linarith

/-- C33, strict form for wrapped positions: points of the half-open cell are strictly closer. -/
theorem ucMaxDiagonal_bounds_strict (L : Lat) (h : Reachable L) (u v : V3)
    (hu : (0 ≤ u.x ∧ u.x < 1) ∧ (0 ≤ u.y ∧ u.y < 1) ∧ (0 ≤ u.z ∧ u.z < 1))
    (hv : (0 ≤ v.x ∧ v.x < 1) ∧ (0 ≤ v.y ∧ v.y < 1) ∧ (0 ≤ v.z ∧ v.z < 1)) :
    V3.distance (L.cartesian u) (L.cartesian v) < L.ucMaxDiagonalLength := by
  obtain ⟨⟨a1, a2⟩, ⟨a3, a4⟩, a5, a6⟩ := hu
  obtain ⟨⟨b1, b2⟩, ⟨b3, b4⟩, b5, b6⟩ := hv
  rw [← (lattice_isometry L h u v).2.2.1]
  have hL := good_of_reachable L h
  have hx : |u.x - v.x| < 1 := abs_lt.2 ⟨by linarith, by linarith⟩
  have hy : |u.y - v.y| < 1 := abs_lt.2 ⟨by linarith, by linarith⟩
  have hz : |u.z - v.z| < 1 := abs_lt.2 ⟨by linarith, by linarith⟩
  obtain ⟨s, hs0, hs1, sx, sy, sz⟩ : ∃ s : ℝ, 0 < s ∧ s < 1 ∧ |u.x - v.x| ≤ s ∧ |u.y - v.y| ≤ s ∧
      |u.z - v.z| ≤ s := by
    refine ⟨max (1 / 2) (max |u.x - v.x| (max |u.y - v.y| |u.z - v.z|)), ?_, ?_, ?_, ?_, ?_⟩
    · exact lt_of_lt_of_le (by norm_num) (le_max_left _ _)
    · exact max_lt (by norm_num) (max_lt hx (max_lt hy hz))
    · exact le_trans (le_max_left _ _) (le_max_right _ _)
    · exact le_trans (le_trans (le_max_left _ _) (le_max_right _ _)) (le_max_right _ _)
    · exact le_trans (le_trans (le_max_right _ _) (le_max_right _ _)) (le_max_right _ _)
  have hd : V3.sub u v = V3.smul s ⟨(u.x - v.x) / s, (u.y - v.y) / s, (u.z - v.z) / s⟩ := by
    ext <;> simp only [V3.sub, V3.smul] <;> field_simp
  have hb := norm_le_maxDiagonal L hL ⟨(u.x - v.x) / s, (u.y - v.y) / s, (u.z - v.z) / s⟩
  have dv : ∀ t : ℝ, |t| ≤ s → -1 ≤ t / s ∧ t / s ≤ 1 := by
    intro t ht
    rw [abs_le] at ht
    constructor
    · rw [le_div_iff₀ hs0]; linarith
    · rw [div_le_one hs0]; exact ht.2
  have hb' := hb (dv _ sx) (dv _ sy) (dv _ sz)
  have hpos : 0 < L.ucMaxDiagonalLength := by
    refine lt_of_lt_of_le ?_ (maxDiagonal_ge L ⟨1, 1, 1⟩ (by simp [ucDiagonals]))
    rw [norm_cartesian L hL]
    apply norm_pos_of_ne
    intro h0
    have h1 := dot_self_eq_zero _ h0
    have h2 := (cartesian_fractional L h ⟨1, 1, 1⟩).2
    rw [h1] at h2
    have := congrArg V3.x h2
    simp [Lat.fractional, M3.vecMul, V3.dot, V3.zero] at this
  show L.norm (V3.sub u v) < _
  rw [hd, norm_smul L hL, abs_of_pos hs0]
  nlinarith

/-! ### Non-vacuity -/

/-- A monoclinic cell (angles 90°, 60°, 90°) is a valid argument. -/
theorem validPar_monoclinic : ValidPar 2 3 4 90 60 90 := by
  have c90 : cosd 90 = 0 := by have := (cosd_exact 0).2.2.1; simpa using this
  have c60 : cosd 60 = 1 / 2 := by have := (cosd_exact 0).2.1; simpa using this
  unfold ValidPar vnormSq; rw [c90, c60]; norm_num

example (L0 : Lat) : Reachable (create L0 2 3 4 90 60 90) := Reachable.create _ _ _ _ _ _ _ validPar_monoclinic

/-- A sheared base is accepted, a left-handed one is rejected. -/
example (L0 : Lat) : Reachable (setLatBase L0 ⟨1, 1, 0⟩ ⟨0, 2, 1⟩ ⟨1, 0, 3⟩).1 := by
  apply Reachable.createBase
  rw [setLatBase_ok]
  norm_num [M3.det, V3.dot, V3.cross]
example (L0 : Lat) : (setLatBase L0 ⟨0, 2, 1⟩ ⟨1, 1, 0⟩ ⟨1, 0, 3⟩).2 = false := by
  have := (setLatBase_ok L0 ⟨0, 2, 1⟩ ⟨1, 1, 0⟩ ⟨1, 0, 3⟩)
  rw [Bool.eq_false_iff, ne_eq, this]
  norm_num [M3.det, V3.dot, V3.cross]

end Verif.Lattice
