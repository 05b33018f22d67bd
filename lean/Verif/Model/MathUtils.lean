import Mathlib.Analysis.SpecialFunctions.Trigonometric.Basic
import Mathlib.Analysis.SpecialFunctions.Trigonometric.Inverse
import Mathlib.Algebra.Order.Round
/-
Model of src/diffpy/mathutils.ipp over ℝ (rounding not modelled; `cos`, `acos`, `M_PI` are the
real cosine, arccosine and π).
-/
namespace Verif.MathUtils
open Classical

/-- C `fmod(x, y)` for `x ≥ 0`, `y > 0`: the remainder of truncated division. -/
noncomputable def fmod (x y : ℝ) : ℝ := x - y * (⌊x / y⌋ : ℝ)

/-- C `remainder(x, y)`: `x` minus the nearest multiple of `y`; ties are resolved upwards here
instead of to even, the code only tests the result for zero. -/
noncomputable def remainder (x y : ℝ) : ℝ := x - y * (round (x / y) : ℝ)

/-- `cosd` (mathutils.ipp:49-67). -/
noncomputable def cosd (x : ℝ) : ℝ :=
  let xp := fmod |x| 360
  let generic := Real.cos (x / 180 * Real.pi)
  if remainder xp 60 = 0 ∨ remainder xp 90 = 0 then
    let k := round xp
    if k = 0 then 1
    else if k = 60 ∨ k = 300 then 1 / 2
    else if k = 90 ∨ k = 270 then 0
    else if k = 120 ∨ k = 240 then -1 / 2
    else if k = 180 then -1
    else generic
  else generic

/-- `sind` (mathutils.ipp:71-74). -/
noncomputable def sind (x : ℝ) : ℝ := cosd (90 - x)

/-- `acosd` (mathutils.ipp:78-92). -/
noncomputable def acosd (x : ℝ) : ℝ :=
  let generic := Real.arccos x / Real.pi * 180
  if remainder x (1 / 2) = 0 then
    let k := round (x / (1 / 2))
    if k = 0 then 90
    else if k = 1 then 60
    else if k = -1 then 120
    else if k = 2 then 0
    else if k = -2 then 180
    else generic
  else generic

/-- `asind` (mathutils.ipp:96-110); the generic branch does call `acos`. -/
noncomputable def asind (x : ℝ) : ℝ :=
  let generic := Real.arccos x / Real.pi * 180
  if remainder x (1 / 2) = 0 then
    let k := round (x / (1 / 2))
    if k = 0 then 0
    else if k = 1 then 30
    else if k = -1 then -30
    else if k = 2 then 90
    else if k = -2 then -90
    else generic
  else generic

/-- `eps_eq` (mathutils.ipp:114-117). -/
def eps_eq (x y eps : ℝ) : Prop := |x - y| ≤ eps
/-- `eps_gt` (mathutils.ipp:121-124). -/
def eps_gt (x y eps : ℝ) : Prop := x > y + eps
/-- `eps_lt` (mathutils.ipp:128-131). -/
def eps_lt (x y eps : ℝ) : Prop := x < y - eps

/-- `EpsilonLess` on sequences (mathutils.hpp:64-71): `std::lexicographical_compare`. -/
def seqLess (eps : ℝ) : List ℝ → List ℝ → Prop
  | _, [] => False
  | [], _ :: _ => True
  | x :: xs, y :: ys => eps_lt x y eps ∨ (¬ eps_lt y x eps ∧ seqLess eps xs ys)

/-- `EpsilonEqual` on sequences (mathutils.hpp:92-98). -/
def seqEqual (eps : ℝ) : List ℝ → List ℝ → Prop
  | [], [] => True
  | x :: xs, y :: ys => eps_eq x y eps ∧ seqEqual eps xs ys
  | _, _ => False

end Verif.MathUtils
