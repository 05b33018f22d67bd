import Verif.Model.BondCalc
import Verif.Lemmas.R3
import Mathlib.Tactic.Linarith
import Mathlib.Tactic.FieldSimp
import Mathlib.Tactic.Positivity
/-!
Properties of the cone filters of BondCalculator (C17).
-/
namespace Verif.BondCalc
open Verif.R3

/-! ## Specification -/

/-- Angle in degrees between two vectors, from the definition cos(angle) = u·v / (|u| |v|). -/
noncomputable def angleDeg (u v : V3) : ℝ :=
  180 / Real.pi * Real.arccos (V3.dot u v / (V3.norm u * V3.norm v))

/-- A filter call: `filterCone(axis, degrees)` or `filterOff()`. -/
inductive ConeOp
  | cone (axis : V3) (degrees : ℝ)
  | off

/-- State after a sequence of filter calls, exceptions being caught. -/
noncomputable def coneRun (s : Cones) : List ConeOp → Cones
  | [] => s
  | .cone a d :: ops => coneRun (filterCone s a d).1 ops
  | .off :: ops => coneRun (filterOff s) ops

/-- The cones asked for since the last `filterOff` (with the caller's axis), bad axes left out. -/
noncomputable def activeCones (acc : List (V3 × ℝ)) : List ConeOp → List (V3 × ℝ)
  | [] => acc
  | .cone a d :: ops =>
    open Classical in activeCones (if V3.norm a > BondGen.sqrtEps then acc ++ [(a, d)] else acc) ops
  | .off :: ops => activeCones [] ops

/-! ## Proof -/

theorem norm_nonneg (u : V3) : 0 ≤ V3.norm u := Real.sqrt_nonneg _

theorem coneLoop_iff (ru : V3) (l : List (V3 × ℝ)) :
    coneLoop ru l ↔ ∃ c ∈ l, 180 / Real.pi * Real.arccos (V3.dot ru c.1) ≤ c.2 := by
  induction l with
  | nil => simp [coneLoop]
  | cons c l ih =>
    obtain ⟨ax, deg⟩ := c
    rw [coneLoop]
    simp only [List.mem_cons, exists_eq_or_imp]
    by_cases h : (180 : ℝ) ≤ deg
    · rw [if_pos h]
      simp only [true_iff]
      left
      have h1 := Real.arccos_le_pi (V3.dot ru ax)
      have hpi := Real.pi_pos
      have : 180 / Real.pi * Real.arccos (V3.dot ru ax) ≤ 180 / Real.pi * Real.pi :=
        mul_le_mul_of_nonneg_left h1 (by positivity)
      rw [div_mul_cancel₀ _ hpi.ne'] at this
      linarith
    · rw [if_neg h]
      by_cases h2 : 180 / Real.pi * Real.arccos (V3.dot ru ax) ≤ deg
      · rw [if_pos h2]; simp [h2]
      · rw [if_neg h2, ih]; simp [h2]

theorem dot_smul_smul (a b : ℝ) (u v : V3) :
    V3.dot (V3.smul a u) (V3.smul b v) = a * b * V3.dot u v := by
  simp only [V3.dot, V3.smul]; ring

theorem coneRun_cones (ops : List ConeOp) (s : Cones) (acc : List (V3 × ℝ))
    (h : s.cones = acc.map fun c => (V3.smul (1 / V3.norm c.1) c.1, c.2)) :
    (coneRun s ops).cones
      = (activeCones acc ops).map fun c => (V3.smul (1 / V3.norm c.1) c.1, c.2) := by
  induction ops generalizing s acc with
  | nil => exact h
  | cons op ops ih =>
    cases op with
    | off =>
      rw [coneRun, activeCones]
      exact ih _ _ rfl
    | cone a d =>
      rw [coneRun, activeCones]
      apply ih
      unfold filterCone
      split
      · simp [h]
      · exact h

/-- **C17**: after any sequence of filter calls on a new calculator, a bond with direction `r01` passes
iff no cone is active or its angle to the axis of some active cone is within that cone's angle. -/
theorem cone_filter_correct (ops : List ConeOp) (r01 : V3) :
    bondPasses (coneRun ⟨[], 0⟩ ops) r01 (V3.norm r01) ↔
      activeCones [] ops = [] ∨ ∃ c ∈ activeCones [] ops, angleDeg r01 c.1 ≤ c.2 := by
  have hc := coneRun_cones ops ⟨[], 0⟩ [] rfl
  unfold bondPasses checkConeFilters
  rw [hc]
  by_cases he : activeCones [] ops = []
  · simp [he]
  · have hne : ¬ ((activeCones [] ops).map fun c => (V3.smul (1 / V3.norm c.1) c.1, c.2)).isEmpty = true := by
      rw [List.isEmpty_iff, List.map_eq_nil_iff]; exact he
    rw [if_neg hne, coneLoop_iff]
    simp only [he, false_or]
    constructor
    · rintro ⟨c', h1, h2⟩
      obtain ⟨c, hm, rfl⟩ := List.mem_map.1 h1
      refine ⟨c, hm, ?_⟩
      rw [dot_smul_smul] at h2
      unfold angleDeg
      rwa [show V3.dot r01 c.1 / (V3.norm r01 * V3.norm c.1)
        = 1 / V3.norm r01 * (1 / V3.norm c.1) * V3.dot r01 c.1 by rw [div_mul_div_comm]; ring]
    · rintro ⟨c, h1, h2⟩
      refine ⟨_, List.mem_map.2 ⟨c, h1, rfl⟩, ?_⟩
      rw [dot_smul_smul]
      unfold angleDeg at h2
      rwa [show V3.dot r01 c.1 / (V3.norm r01 * V3.norm c.1)
        = 1 / V3.norm r01 * (1 / V3.norm c.1) * V3.dot r01 c.1 by rw [div_mul_div_comm]; ring] at h2

/-- **C17**: a cone of 180 degrees or more admits every bond. -/
theorem cone_180 (ops : List ConeOp) (r01 axis : V3) (deg : ℝ) (h : (axis, deg) ∈ activeCones [] ops)
    (hd : 180 ≤ deg) : bondPasses (coneRun ⟨[], 0⟩ ops) r01 (V3.norm r01) := by
  rw [cone_filter_correct]
  refine Or.inr ⟨_, h, ?_⟩
  unfold angleDeg
  have h1 := Real.arccos_le_pi (V3.dot r01 axis / (V3.norm r01 * V3.norm axis))
  have hpi := Real.pi_pos
  have : 180 / Real.pi * Real.arccos (V3.dot r01 axis / (V3.norm r01 * V3.norm axis)) ≤ 180 / Real.pi * Real.pi :=
    mul_le_mul_of_nonneg_left h1 (by positivity)
  rw [div_mul_cancel₀ _ hpi.ne'] at this
  exact this.trans hd

/-- **C17**: a cone call throws exactly when the axis is not longer than the tolerance 2^-26, and then
neither the filters nor the ticker change; otherwise the ticker is clicked. -/
theorem cone_rejects (s : Cones) (axis : V3) (deg : ℝ) :
    ((filterCone s axis deg).2 = false ↔ V3.norm axis ≤ 1 / 2 ^ 26) ∧
    ((filterCone s axis deg).2 = false → (filterCone s axis deg).1 = s) ∧
    ((filterCone s axis deg).2 = true → (filterCone s axis deg).1.clicks = s.clicks + 1) := by
  unfold filterCone BondGen.sqrtEps
  by_cases h : V3.norm axis > 1 / 2 ^ 26
  · rw [if_pos h]
    exact ⟨⟨fun hh => (by cases hh), fun hh => absurd h (not_lt.2 hh)⟩, fun hh => (by cases hh), fun _ => rfl⟩
  · rw [if_neg h]
    exact ⟨⟨fun _ => not_lt.1 h, fun _ => rfl⟩, fun _ => rfl, fun hh => (by cases hh)⟩

/-- **C17**: `filterOff` admits every bond, and clicks the ticker when there was a filter. -/
theorem cone_off (s : Cones) (ru : V3) :
    checkConeFilters (filterOff s) ru ∧ (s.cones ≠ [] → (filterOff s).clicks = s.clicks + 1) := by
  constructor
  · simp [checkConeFilters, filterOff]
  · intro h
    have : s.cones.isEmpty = false := by
      cases hc : s.cones with
      | nil => exact absurd hc h
      | cons => rfl
    simp [filterOff, this]

/-- A cone of 45 degrees about x admits the x direction (axis of any length) and not the y direction. -/
example : bondPasses (coneRun ⟨[], 0⟩ [.cone ⟨3, 0, 0⟩ 45]) ⟨2, 0, 0⟩ (V3.norm ⟨2, 0, 0⟩) ∧
    ¬ bondPasses (coneRun ⟨[], 0⟩ [.cone ⟨3, 0, 0⟩ 45]) ⟨0, 2, 0⟩ (V3.norm ⟨0, 2, 0⟩) := by
  have n3 : V3.norm ⟨3, 0, 0⟩ = 3 := by
    simp only [V3.norm, V3.dot]
    rw [show (3 : ℝ) * 3 + 0 * 0 + 0 * 0 = 3 ^ 2 by norm_num]
    exact Real.sqrt_sq (by norm_num)
  have n2 : V3.norm ⟨2, 0, 0⟩ = 2 := by
    simp only [V3.norm, V3.dot]
    rw [show (2 : ℝ) * 2 + 0 * 0 + 0 * 0 = 2 ^ 2 by norm_num]
    exact Real.sqrt_sq (by norm_num)
  have ha : activeCones [] [.cone ⟨3, 0, 0⟩ 45] = [(⟨3, 0, 0⟩, 45)] := by
    rw [activeCones, activeCones, if_pos (by rw [n3]; unfold BondGen.sqrtEps; norm_num)]
    rfl
  rw [cone_filter_correct, cone_filter_correct, ha]
  have hpi := Real.pi_pos
  constructor
  · right
    refine ⟨_, List.mem_singleton.2 rfl, ?_⟩
    unfold angleDeg
    rw [n3, n2]
    simp only [V3.dot]
    norm_num
  · rintro (h | ⟨c, h1, h2⟩)
    · cases h
    · rw [List.mem_singleton] at h1
      subst h1
      unfold angleDeg at h2
      have : V3.dot ⟨0, 2, 0⟩ ⟨3, 0, 0⟩ = 0 := by simp [V3.dot]
      rw [this, zero_div, Real.arccos_zero, show 180 / Real.pi * (Real.pi / 2) = 90 by field_simp; norm_num] at h2
      norm_num at h2

end Verif.BondCalc
