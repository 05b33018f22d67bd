import Verif.Model.R3
import Mathlib.Tactic.Positivity
import Mathlib.Tactic.LinearCombination
/-! Lemmas on 3-vectors and matrices. -/
namespace Verif.R3

namespace V3

theorem dot_self_nonneg (u : V3) : 0 ≤ dot u u := by
  unfold dot; nlinarith [sq_nonneg u.x, sq_nonneg u.y, sq_nonneg u.z]

theorem dot_comm (u v : V3) : dot u v = dot v u := by unfold dot; ring

theorem norm_nonneg (u : V3) : 0 ≤ norm u := Real.sqrt_nonneg _

theorem norm_sq (u : V3) : norm u * norm u = dot u u := Real.mul_self_sqrt (dot_self_nonneg u)

theorem abs_x_le (u : V3) : |u.x| ≤ norm u := by
  apply Real.le_sqrt_of_sq_le
  unfold dot; rw [sq_abs]; nlinarith [sq_nonneg u.y, sq_nonneg u.z]

theorem abs_y_le (u : V3) : |u.y| ≤ norm u := by
  apply Real.le_sqrt_of_sq_le
  unfold dot; rw [sq_abs]; nlinarith [sq_nonneg u.x, sq_nonneg u.z]

theorem abs_z_le (u : V3) : |u.z| ≤ norm u := by
  apply Real.le_sqrt_of_sq_le
  unfold dot; rw [sq_abs]; nlinarith [sq_nonneg u.x, sq_nonneg u.y]

theorem cauchy (u v : V3) : dot u v ≤ norm u * norm v := by
  have h : dot u v ^ 2 ≤ (norm u * norm v) ^ 2 := by
    have e : (norm u * norm v) ^ 2 = dot u u * dot v v := by
      rw [← norm_sq u, ← norm_sq v]; ring
    rw [e]; unfold dot
    nlinarith [sq_nonneg (u.x * v.y - u.y * v.x), sq_nonneg (u.x * v.z - u.z * v.x),
      sq_nonneg (u.y * v.z - u.z * v.y)]
  exact le_of_sq_le_sq h (mul_nonneg (norm_nonneg u) (norm_nonneg v))
where
  le_of_sq_le_sq {a b : ℝ} (h : a ^ 2 ≤ b ^ 2) (hb : 0 ≤ b) : a ≤ b := by
    by_contra hc
    rw [not_le] at hc
    nlinarith

theorem norm_add_le (u v : V3) : norm (add u v) ≤ norm u + norm v := by
  apply Real.sqrt_le_iff.2
  refine ⟨add_nonneg (norm_nonneg u) (norm_nonneg v), ?_⟩
  have e : dot (add u v) (add u v) = dot u u + 2 * dot u v + dot v v := by unfold dot add; ring
  rw [e, ← norm_sq u, ← norm_sq v]
  nlinarith [cauchy u v]

theorem norm_smul (t : ℝ) (u : V3) : norm (smul t u) = |t| * norm u := by
  unfold norm
  have : dot (smul t u) (smul t u) = t ^ 2 * dot u u := by unfold dot smul; ring
  rw [this, Real.sqrt_mul (sq_nonneg t), Real.sqrt_sq_eq_abs]

theorem norm_sub_comm (u v : V3) : norm (sub u v) = norm (sub v u) := by
  unfold norm; congr 1; unfold dot sub; ring

theorem norm_sub_le (u v : V3) : norm (sub u v) ≤ norm u + norm v := by
  have h := norm_add_le u (smul (-1) v)
  rw [norm_smul] at h
  have e : add u (smul (-1) v) = sub u v := by
    unfold add smul sub; ext <;> simp <;> ring
  rw [e] at h
  simpa using h

theorem norm_zero : norm zero = 0 := by unfold norm zero dot; simp

theorem norm_eq_zero (u : V3) (h : norm u = 0) : u = zero := by
  have h1 : dot u u = 0 := by rw [← norm_sq, h]; ring
  unfold dot at h1
  have hx : u.x = 0 := by nlinarith [sq_nonneg u.x, sq_nonneg u.y, sq_nonneg u.z]
  have hy : u.y = 0 := by nlinarith [sq_nonneg u.x, sq_nonneg u.y, sq_nonneg u.z]
  have hz : u.z = 0 := by nlinarith [sq_nonneg u.x, sq_nonneg u.y, sq_nonneg u.z]
  ext <;> simp [zero, hx, hy, hz]

end V3

namespace M3

theorem vecMul_add (u v : V3) (m : M3) : vecMul (V3.add u v) m = V3.add (vecMul u m) (vecMul v m) := by
  unfold vecMul V3.add V3.dot; ext <;> simp <;> ring

theorem vecMul_sub (u v : V3) (m : M3) : vecMul (V3.sub u v) m = V3.sub (vecMul u m) (vecMul v m) := by
  unfold vecMul V3.sub V3.dot; ext <;> simp <;> ring

theorem vecMul_smul (t : ℝ) (v : V3) (m : M3) : vecMul (V3.smul t v) m = V3.smul t (vecMul v m) := by
  unfold vecMul V3.smul V3.dot; ext <;> simp <;> ring

theorem vecMul_mul (u : V3) (a b : M3) : vecMul u (mul a b) = vecMul (vecMul u a) b := by
  unfold vecMul mul V3.dot c0 c1 c2 vecMul V3.dot c0 c1 c2; ext <;> simp <;> ring

theorem vecMul_one (u : V3) : vecMul u one = u := by
  unfold vecMul one V3.dot c0 c1 c2; ext <;> simp

theorem mul_assoc (a b c : M3) : mul (mul a b) c = mul a (mul b c) := by
  ext <;> simp [mul, vecMul, V3.dot, c0, c1, c2] <;> ring

theorem mul_inverse (a : M3) (h : det a ≠ 0) : mul a (inverse a) = one := by
  obtain ⟨d, hd⟩ : ∃ d, d = det a := ⟨_, rfl⟩
  have hd' := hd
  rw [← hd] at h
  simp only [det, V3.dot, V3.cross] at hd'
  ext <;> simp only [mul, inverse, vecMul, one, c0, c1, c2, ← hd, V3.dot, V3.cross] <;>
    field_simp <;> first | ring1 | linear_combination hd' | linear_combination -hd'

theorem inverse_mul (a : M3) (h : det a ≠ 0) : mul (inverse a) a = one := by
  obtain ⟨d, hd⟩ : ∃ d, d = det a := ⟨_, rfl⟩
  have hd' := hd
  rw [← hd] at h
  simp only [det, V3.dot, V3.cross] at hd'
  ext <;> simp only [mul, inverse, vecMul, one, c0, c1, c2, ← hd, V3.dot, V3.cross] <;>
    field_simp <;> first | ring1 | linear_combination hd' | linear_combination -hd'

theorem one_mul (a : M3) : mul one a = a := by
  ext <;> simp [mul, vecMul, V3.dot, c0, c1, c2, one]

theorem mul_one (a : M3) : mul a one = a := by
  ext <;> simp [mul, vecMul, V3.dot, c0, c1, c2, one]

end M3
end Verif.R3
