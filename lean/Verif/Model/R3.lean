import Mathlib.Analysis.Real.Sqrt
import Mathlib.Algebra.Order.Floor.Ring
import Mathlib.Algebra.Order.Archimedean.Real.Basic
import Mathlib.Tactic.Ring
import Mathlib.Tactic.Linarith
import Mathlib.Tactic.FieldSimp
/-
Three-dimensional vectors and matrices over ℝ (src/diffpy/srreal/R3linalg.hpp, R3linalg.cpp).
Rounding is not modelled.
-/
namespace Verif.R3

/-- `R3::Vector` (R3linalg.hpp:49-94). -/
@[ext] structure V3 where
  x : ℝ
  y : ℝ
  z : ℝ

/-- `R3::Matrix` (R3linalg.hpp:97-140), by rows. -/
@[ext] structure M3 where
  r0 : V3
  r1 : V3
  r2 : V3

namespace V3

/-- `R3::zerovector` (R3linalg.hpp:45). -/
def zero : V3 := ⟨0, 0, 0⟩
/-- ublas vector addition. -/
def add (u v : V3) : V3 := ⟨u.x + v.x, u.y + v.y, u.z + v.z⟩
/-- ublas vector subtraction. -/
def sub (u v : V3) : V3 := ⟨u.x - v.x, u.y - v.y, u.z - v.z⟩
/-- ublas scalar product with a number. -/
def smul (t : ℝ) (v : V3) : V3 := ⟨t * v.x, t * v.y, t * v.z⟩
/-- `R3::dot` (R3linalg.hpp:226-230). -/
def dot (u v : V3) : ℝ := u.x * v.x + u.y * v.y + u.z * v.z
/-- `R3::norm` (R3linalg.hpp:208-212). -/
noncomputable def norm (u : V3) : ℝ := Real.sqrt (dot u u)
/-- `R3::distance` (R3linalg.hpp:215-223). -/
noncomputable def distance (u v : V3) : ℝ := norm (sub u v)
/-- `R3::cross` (R3linalg.hpp:233-241). -/
def cross (u v : V3) : V3 :=
  ⟨u.y * v.z - u.z * v.y, u.z * v.x - u.x * v.z, u.x * v.y - u.y * v.x⟩
/-- `R3::floor` (R3linalg.hpp:195-203). -/
noncomputable def floor (u : V3) : V3 := ⟨(⌊u.x⌋ : ℝ), (⌊u.y⌋ : ℝ), (⌊u.z⌋ : ℝ)⟩

end V3

namespace M3

/-- Column `k` of a matrix. -/
def c0 (m : M3) : V3 := ⟨m.r0.x, m.r1.x, m.r2.x⟩
def c1 (m : M3) : V3 := ⟨m.r0.y, m.r1.y, m.r2.y⟩
def c2 (m : M3) : V3 := ⟨m.r0.z, m.r1.z, m.r2.z⟩

/-- `mxvecproduct(M, u)` (R3linalg.hpp:244-252). -/
def mulVec (m : M3) (u : V3) : V3 := ⟨V3.dot m.r0 u, V3.dot m.r1 u, V3.dot m.r2 u⟩
/-- `mxvecproduct(u, M)` (R3linalg.hpp:255-263). -/
def vecMul (u : V3) (m : M3) : V3 := ⟨V3.dot u m.c0, V3.dot u m.c1, V3.dot u m.c2⟩
/-- `R3::prod`, matrix product (ublas). -/
def mul (a b : M3) : M3 := ⟨vecMul a.r0 b, vecMul a.r1 b, vecMul a.r2 b⟩
/-- `R3::trans` (ublas). -/
def trans (a : M3) : M3 := ⟨a.c0, a.c1, a.c2⟩
/-- `R3::identity` (R3linalg.cpp:28-32). -/
def one : M3 := ⟨⟨1, 0, 0⟩, ⟨0, 1, 0⟩, ⟨0, 0, 1⟩⟩
/-- `R3::determinant` (R3linalg.cpp:42-59); the GSL LU result is taken as the exact determinant. -/
def det (a : M3) : ℝ := V3.dot a.r0 (V3.cross a.r1 a.r2)
/-- `R3::inverse` (R3linalg.cpp:62-82); the GSL LU result is taken as the exact inverse
adjugate / determinant. -/
noncomputable def inverse (a : M3) : M3 :=
  let d := det a
  let u := V3.cross a.r1 a.r2
  let v := V3.cross a.r2 a.r0
  let w := V3.cross a.r0 a.r1
  ⟨⟨u.x / d, v.x / d, w.x / d⟩, ⟨u.y / d, v.y / d, w.y / d⟩, ⟨u.z / d, v.z / d, w.z / d⟩⟩

end M3
end Verif.R3
