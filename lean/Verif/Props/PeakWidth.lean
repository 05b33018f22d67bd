import Verif.Model.PeakShape
import Verif.Props.PeakShape
import Mathlib.Analysis.Convex.Mul
import Mathlib.Analysis.Convex.Jensen
import Mathlib.Tactic.Positivity
import Mathlib.Tactic.NormNum
/-!
C36 (widths): the width of a bond is bounded by the maximum width that the PDF calculator uses to extend its
range.
-/
namespace Verif.Peak
open Verif.R3

/-- The mean square displacement of a site along the direction `s`: the quadratic form of `U`. -/
def quad (U : M3) (s : V3) : ℝ :=
  U.r0.x * s.x ^ 2 + U.r1.y * s.y ^ 2 + U.r2.z * s.z ^ 2 +
    2 * (U.r0.y * s.x * s.y + U.r0.z * s.x * s.z + U.r1.z * s.y * s.z)

theorem norm_pos {s : V3} (hs : s ≠ V3.zero) : 0 < V3.norm s := by
  unfold V3.norm
  refine Real.sqrt_pos.2 ?_
  unfold V3.dot
  rcases (by by_contra hc; push Not at hc; exact hs (by ext <;> simp [V3.zero, hc]) : s.x ≠ 0 ∨ s.y ≠ 0 ∨ s.z ≠ 0) with h | h | h
  · have := mul_self_pos.2 h; nlinarith [mul_self_nonneg s.y, mul_self_nonneg s.z]
  · have := mul_self_pos.2 h; nlinarith [mul_self_nonneg s.x, mul_self_nonneg s.z]
  · have := mul_self_pos.2 h; nlinarith [mul_self_nonneg s.x, mul_self_nonneg s.y]

theorem norm_sq (s : V3) : V3.norm s ^ 2 = V3.dot s s := by
  unfold V3.norm
  refine Real.sq_sqrt ?_
  unfold V3.dot
  nlinarith [mul_self_nonneg s.x, mul_self_nonneg s.y, mul_self_nonneg s.z]

/-- C36. The displacement along a bond is the quadratic form of U in the direction of the bond; it does not
depend on the length or the orientation of the bond vector. -/
theorem msd_spec (U : M3) (s : V3) (hs : s ≠ V3.zero) :
    meanSquareDisplacement U s true = quad U s / V3.dot s s ∧
    (∀ t : ℝ, t ≠ 0 → meanSquareDisplacement U (V3.smul t s) true = meanSquareDisplacement U s true) ∧
    meanSquareDisplacement U s false = U.r0.x := by
  have key : ∀ s : V3, s ≠ V3.zero → meanSquareDisplacement U s true = quad U s / V3.dot s s := by
    intro s hs
    have hn := norm_pos hs
    unfold meanSquareDisplacement quad
    rw [← norm_sq]
    simp only [if_true]
    field_simp
    ring
  refine ⟨key s hs, ?_, rfl⟩
  intro t ht
  have hs' : V3.smul t s ≠ V3.zero := by
    intro hc
    apply hs
    simp only [V3.smul, V3.zero, V3.mk.injEq, mul_eq_zero, ht, false_or] at hc
    ext <;> simp [V3.zero, hc]
  rw [key _ hs', key _ hs]
  have hd : V3.dot s s ≠ 0 := by rw [← norm_sq]; exact (pow_pos (norm_pos hs) 2).ne'
  have e1 : quad U (V3.smul t s) = t ^ 2 * quad U s := by unfold quad V3.smul; ring
  have e2 : V3.dot (V3.smul t s) (V3.smul t s) = t ^ 2 * V3.dot s s := by unfold V3.dot V3.smul; ring
  rw [e1, e2, mul_div_mul_left _ _ (pow_ne_zero 2 ht)]

/-! ### `maxUii` -/

theorem maxUii_fold (l : List Site) (a : ℝ) :
    let m := l.foldl (fun rv s => [s.U.r0.x, s.U.r1.y, s.U.r2.z].foldl (fun rv u => if u > rv then u else rv) rv) a
    a ≤ m ∧ (∀ s ∈ l, s.U.r0.x ≤ m ∧ s.U.r1.y ≤ m ∧ s.U.r2.z ≤ m) ∧
    (m = a ∨ ∃ s ∈ l, m = s.U.r0.x ∨ m = s.U.r1.y ∨ m = s.U.r2.z) := by
  have hif : ∀ u v : ℝ, (if u > v then u else v) = max v u := by
    intro u v
    by_cases h : u > v
    · rw [if_pos h, max_eq_right h.le]
    · rw [if_neg h, max_eq_left (not_lt.1 h)]
  induction l generalizing a with
  | nil => simp
  | cons s l ih =>
    simp only [List.foldl_cons, List.foldl_nil, hif]
    simp only [List.foldl_cons, List.foldl_nil, hif] at ih
    obtain ⟨h1, h2, h3⟩ := ih (max (max (max a s.U.r0.x) s.U.r1.y) s.U.r2.z)
    have b1 : a ≤ max (max (max a s.U.r0.x) s.U.r1.y) s.U.r2.z := by simp
    have b2 : s.U.r0.x ≤ max (max (max a s.U.r0.x) s.U.r1.y) s.U.r2.z := by simp
    have b3 : s.U.r1.y ≤ max (max (max a s.U.r0.x) s.U.r1.y) s.U.r2.z := by simp
    have b4 : s.U.r2.z ≤ max (max (max a s.U.r0.x) s.U.r1.y) s.U.r2.z := by simp
    refine ⟨b1.trans h1, ?_, ?_⟩
    · intro q hq
      rcases List.mem_cons.1 hq with rfl | hq
      · exact ⟨b2.trans h1, b3.trans h1, b4.trans h1⟩
      · exact h2 q hq
    · rcases h3 with h3 | ⟨q, hq, h3⟩
      · rw [h3]
        rcases max_choice (max (max a s.U.r0.x) s.U.r1.y) s.U.r2.z with h | h
        · rw [h]
          rcases max_choice (max a s.U.r0.x) s.U.r1.y with h | h
          · rw [h]
            rcases max_choice a s.U.r0.x with h | h
            · left; exact h
            · right; exact ⟨s, List.mem_cons_self, Or.inl h⟩
          · right; exact ⟨s, List.mem_cons_self, Or.inr (Or.inl h)⟩
        · right; exact ⟨s, List.mem_cons_self, Or.inr (Or.inr h)⟩
      · right; exact ⟨q, List.mem_cons_of_mem _ hq, h3⟩

/-- C36. `maxUii` is the largest diagonal element of all sites, at least zero. -/
theorem maxUii_spec (sites : List Site) :
    0 ≤ maxUii sites ∧ (∀ s ∈ sites, s.U.r0.x ≤ maxUii sites ∧ s.U.r1.y ≤ maxUii sites ∧ s.U.r2.z ≤ maxUii sites) ∧
    (maxUii sites = 0 ∨ ∃ s ∈ sites, maxUii sites = s.U.r0.x ∨ maxUii sites = s.U.r1.y ∨ maxUii sites = s.U.r2.z) :=
  maxUii_fold sites 0

theorem sigma_pos : 0 < sigmaToFwhm := by
  unfold sigmaToFwhm
  have : 0 < Real.sqrt (2 * Real.log 2) := Real.sqrt_pos.2 (by have := log2_pos; linarith)
  linarith

theorem dw_le (m u : ℝ) (k : ℝ) (hk : 0 ≤ k) (h : m ≤ k * (2 * u)) :
    dwCalculate m ≤ Real.sqrt k * (if 2 * u ≤ 0 then 0 else sigmaToFwhm * Real.sqrt (2 * u)) := by
  have e : (if 2 * u ≤ 0 then 0 else sigmaToFwhm * Real.sqrt (2 * u)) = sigmaToFwhm * Real.sqrt (2 * u) := by
    split
    · rename_i h0
      rw [Real.sqrt_eq_zero_of_nonpos h0, mul_zero]
    · rfl
  rw [e]
  unfold dwCalculate
  have hs := sigma_pos
  split
  · positivity
  · calc sigmaToFwhm * Real.sqrt m ≤ sigmaToFwhm * Real.sqrt (k * (2 * u)) :=
        mul_le_mul_of_nonneg_left (Real.sqrt_le_sqrt h) hs.le
      _ = Real.sqrt k * (sigmaToFwhm * Real.sqrt (2 * u)) := by rw [Real.sqrt_mul hk]; ring

theorem dwCalculate_nonneg (m : ℝ) : 0 ≤ dwCalculate m := by
  unfold dwCalculate
  have := sigma_pos
  split <;> positivity

theorem dwMax_nonneg (l : List Site) : 0 ≤ dwMaxWidth l := by
  unfold dwMaxWidth
  have := sigma_pos
  simp only
  split <;> positivity

/-- The displacement ellipsoid has its axes along the Cartesian axes. -/
def Aligned (s : Site) : Prop := s.aniso = true → s.U.r0.y = 0 ∧ s.U.r0.z = 0 ∧ s.U.r1.z = 0

/-- The displacement ellipsoid is a proper one: no negative displacement in any direction. -/
def Proper (s : Site) : Prop := ∀ v : V3, 0 ≤ quad s.U v

theorem msd_aligned (sites : List Site) (a : Site) (ha : a ∈ sites) (hal : Aligned a) (s : V3) (hs : s ≠ V3.zero) :
    meanSquareDisplacement a.U s a.aniso ≤ maxUii sites := by
  obtain ⟨_, hm, _⟩ := maxUii_spec sites
  obtain ⟨h0, h1, h2⟩ := hm a ha
  cases ho : a.aniso with
  | false => exact h0
  | true =>
    obtain ⟨z1, z2, z3⟩ := hal ho
    have hd : 0 < V3.dot s s := by rw [← norm_sq]; exact pow_pos (norm_pos hs) 2
    rw [(msd_spec a.U s hs).1, div_le_iff₀ hd]
    unfold quad V3.dot
    rw [z1, z2, z3]
    nlinarith [mul_nonneg (sub_nonneg.2 h0) (sq_nonneg s.x), mul_nonneg (sub_nonneg.2 h1) (sq_nonneg s.y),
      mul_nonneg (sub_nonneg.2 h2) (sq_nonneg s.z)]

theorem msd_proper (sites : List Site) (a : Site) (ha : a ∈ sites) (hp : Proper a) (s : V3) (hs : s ≠ V3.zero) :
    meanSquareDisplacement a.U s a.aniso ≤ 3 * maxUii sites := by
  obtain ⟨hnn, hm, _⟩ := maxUii_spec sites
  obtain ⟨h0, h1, h2⟩ := hm a ha
  cases ho : a.aniso with
  | false => show a.U.r0.x ≤ _; linarith
  | true =>
    have hd : 0 < V3.dot s s := by rw [← norm_sq]; exact pow_pos (norm_pos hs) 2
    rw [(msd_spec a.U s hs).1, div_le_iff₀ hd]
    have q1 := hp ⟨0, -s.z, s.y⟩
    have q2 := hp ⟨s.z, 0, -s.x⟩
    have q3 := hp ⟨-s.y, s.x, 0⟩
    unfold quad at *
    unfold V3.dot at *
    simp only at q1 q2 q3
    have ht : (a.U.r0.x + a.U.r1.y + a.U.r2.z) * (s.x * s.x + s.y * s.y + s.z * s.z) ≤
        3 * maxUii sites * (s.x * s.x + s.y * s.y + s.z * s.z) :=
      mul_le_mul_of_nonneg_right (by linarith) hd.le
    nlinarith

/-- C36, partial: no bond of the structure is wider than `maxWidth` when the displacements are isotropic or
aligned with the Cartesian axes.  (Missing: other anisotropic displacements, for which the claim is false, see
`dw_max_bug`; `dw_max_sqrt3` is what holds for them.) -/
theorem dw_max_partial (sites : List Site) (hal : ∀ a ∈ sites, Aligned a) (a b : Site) (ha : a ∈ sites)
    (hb : b ∈ sites) (s : V3) (hs : s ≠ V3.zero) : dwCalculate (msd a b s) ≤ dwMaxWidth sites := by
  have h := dw_le (msd a b s) (maxUii sites) 1 zero_le_one (by
    unfold msd
    have := msd_aligned sites a ha (hal a ha) s hs
    have := msd_aligned sites b hb (hal b hb) s hs
    linarith)
  rw [Real.sqrt_one, one_mul] at h
  exact h

/-- C36. For any proper displacement ellipsoids a bond is at most √3 times wider than `maxWidth`. -/
theorem dw_max_sqrt3 (sites : List Site) (hp : ∀ a ∈ sites, Proper a) (a b : Site) (ha : a ∈ sites)
    (hb : b ∈ sites) (s : V3) (hs : s ≠ V3.zero) : dwCalculate (msd a b s) ≤ Real.sqrt 3 * dwMaxWidth sites := by
  refine dw_le (msd a b s) (maxUii sites) 3 (by norm_num) ?_
  unfold msd
  have := msd_proper sites a ha (hp a ha) s hs
  have := msd_proper sites b hb (hp b hb) s hs
  linarith

/-- A site with a displacement ellipsoid elongated along the diagonal of x and y. -/
noncomputable def tilted : Site := ⟨⟨⟨1, 9 / 10, 0⟩, ⟨9 / 10, 1, 0⟩, ⟨0, 0, 1⟩⟩, true⟩

theorem tilted_proper : Proper tilted := by
  intro v
  unfold quad tilted
  simp only
  nlinarith [sq_nonneg (v.x + v.y), sq_nonneg (v.x - v.y), sq_nonneg v.z]

/-- A defect: `maxWidth` looks only at the diagonal elements of U, so a bond along the long axis of a proper
tilted ellipsoid is wider than the reported maximum. -/
theorem dw_max_bug : Proper tilted ∧ dwMaxWidth [tilted, tilted] < dwCalculate (msd tilted tilted ⟨1, 1, 0⟩) := by
  refine ⟨tilted_proper, ?_⟩
  have hz : (⟨1, 1, 0⟩ : V3) ≠ V3.zero := by
    intro h; have := congrArg V3.x h; simp [V3.zero] at this
  have hm : msd tilted tilted ⟨1, 1, 0⟩ = 19 / 5 := by
    unfold msd
    rw [show tilted.aniso = true from rfl, (msd_spec tilted.U _ hz).1]
    unfold quad V3.dot tilted
    norm_num
  have hu : maxUii [tilted, tilted] = 1 := by
    unfold maxUii tilted
    simp
  rw [hm]
  unfold dwMaxWidth dwCalculate
  rw [hu]
  simp only
  rw [if_neg (by norm_num), if_neg (by norm_num)]
  exact mul_lt_mul_of_pos_left (Real.sqrt_lt_sqrt (by norm_num) (by norm_num)) sigma_pos

/-! ### The Jeong width -/

/-- Parameters for which the correction of the width takes its maximum over a range at an end of the range:
sharpening of close neighbours (the physical case), or broadening of them in a range away from zero. -/
def Regular (j : Jeong) (rmin : ℝ) : Prop :=
  (0 ≤ j.delta1 ∧ 0 ≤ j.delta2) ∨ (j.delta1 ≤ 0 ∧ j.delta2 ≤ 0 ∧ dblEps ≤ rmin)

theorem ratio_max (j : Jeong) (rmin rmax r : ℝ) (hj : Regular j rmin) (h0 : 0 ≤ rmin) (h1 : rmin ≤ r) (h2 : r ≤ rmax) :
    j.ratio r ≤ max 0 (max (j.ratio rmin) (j.ratio rmax)) := by
  by_cases he : r < dblEps
  · unfold Jeong.ratio
    rw [if_pos he]
    exact le_max_left _ _
  have he' := not_lt.1 he
  have hr : 0 < r := lt_of_lt_of_le dblEps_pos he'
  have hR : 0 < rmax := hr.trans_le h2
  have eR : j.ratio rmax = 1 - j.delta1 / rmax - j.delta2 / rmax ^ 2 + (j.qbroad * rmax) ^ 2 :=
    if_neg (not_lt.2 (he'.trans h2))
  have er : j.ratio r = 1 - j.delta1 / r - j.delta2 / r ^ 2 + (j.qbroad * r) ^ 2 := if_neg he
  refine le_trans ?_ (le_max_right _ _)
  rcases hj with ⟨d1, d2⟩ | ⟨d1, d2, hm⟩
  · refine le_trans ?_ (le_max_right _ _)
    rw [er, eR]
    have a1 : j.delta1 / rmax ≤ j.delta1 / r := div_le_div_of_nonneg_left d1 hr h2
    have a2 : j.delta2 / rmax ^ 2 ≤ j.delta2 / r ^ 2 :=
      div_le_div_of_nonneg_left d2 (by positivity) (by nlinarith)
    have a3 : (j.qbroad * r) ^ 2 ≤ (j.qbroad * rmax) ^ 2 := by
      rw [mul_pow, mul_pow]
      exact mul_le_mul_of_nonneg_left (by nlinarith) (sq_nonneg _)
    linarith
  · have em : j.ratio rmin = 1 - j.delta1 / rmin - j.delta2 / rmin ^ 2 + (j.qbroad * rmin) ^ 2 :=
      if_neg (not_lt.2 hm)
    rw [er, em, eR]
    have hc : ConvexOn ℝ (Set.Ioi 0) (fun x : ℝ => 1 - j.delta1 / x - j.delta2 / x ^ 2 + (j.qbroad * x) ^ 2) := by
      have c1 := (convexOn_zpow (𝕜 := ℝ) (-1)).smul (neg_nonneg.2 d1)
      have c2 := (convexOn_zpow (𝕜 := ℝ) (-2)).smul (neg_nonneg.2 d2)
      have c3 := (convexOn_zpow (𝕜 := ℝ) 2).smul (sq_nonneg j.qbroad)
      have c := ((c1.add c2).add c3).add (convexOn_const (1 : ℝ) (convex_Ioi (0 : ℝ)))
      refine c.congr ?_
      intro x _
      simp only [Pi.add_apply, smul_eq_mul, zpow_neg, zpow_ofNat]
      simp only [div_eq_mul_inv]
      ring
    have := hc.le_max_of_mem_Icc (x := rmin) (y := rmax) (z := r) (lt_of_lt_of_le dblEps_pos hm) hR ⟨h1, h2⟩
    exact this

/-- C36, partial: with regular parameters no bond with length in the range is wider than `maxWidth`, provided
this holds for the underlying displacements. (Missing: parameters δ₁, δ₂ of mixed signs and negative ones
with a range starting at zero, for which the claim is false, see `jeong_interior_bug` and
`jeong_rmin_zero_bug`.) -/
theorem jeong_max_partial (j : Jeong) (sites : List Site) (rmin rmax r m : ℝ) (hj : Regular j rmin) (h0 : 0 ≤ rmin)
    (h1 : rmin ≤ r) (h2 : r ≤ rmax) (hdw : dwCalculate m ≤ dwMaxWidth sites) :
    j.calculate r m ≤ j.maxWidth sites rmin rmax := by
  have hr := ratio_max j rmin rmax r hj h0 h1 h2
  have hn := dwMax_nonneg sites
  unfold Jeong.calculate Jeong.maxWidth
  simp only
  split
  · positivity
  · refine add_le_add ?_ ?_
    · rw [mul_comm]
      refine mul_le_mul hdw (Real.sqrt_le_sqrt (hr.trans (max_le_max zero_le_one le_rfl))) (Real.sqrt_nonneg _) hn
    · rw [mul_pow, mul_pow]
      exact mul_le_mul_of_nonneg_left (by nlinarith) (sq_nonneg _)

theorem jeong_exceeds (j : Jeong) (sites : List Site) (rmin rmax r : ℝ) (hq : j.qbroadSep = 0)
    (hs : 0 < maxUii sites) (h : max 1 (max (j.ratio rmin) (j.ratio rmax)) < j.ratio r) :
    j.maxWidth sites rmin rmax < j.calculate r (2 * maxUii sites) := by
  have hone : 1 < j.ratio r := lt_of_le_of_lt (le_max_left _ _) h
  unfold Jeong.calculate Jeong.maxWidth dwMaxWidth dwCalculate
  simp only
  rw [if_neg (by linarith), if_neg (by linarith), if_neg (by linarith), hq]
  simp only [zero_mul]
  have hp : 0 < sigmaToFwhm * Real.sqrt (2 * maxUii sites) :=
    mul_pos sigma_pos (Real.sqrt_pos.2 (by linarith))
  have := mul_lt_mul_of_pos_left (Real.sqrt_lt_sqrt (by positivity) h) hp
  linarith

/-- One isotropic site with unit displacement. -/
def unitSite : Site := ⟨⟨⟨1, 0, 0⟩, ⟨0, 1, 0⟩, ⟨0, 0, 1⟩⟩, false⟩

theorem unit_max : maxUii [unitSite] = 1 := by unfold maxUii unitSite; simp

theorem unit_msd (s : V3) : msd unitSite unitSite s = 2 * maxUii [unitSite] := by
  rw [unit_max]; unfold msd meanSquareDisplacement unitSite; norm_num

theorem ratio_at (j : Jeong) (r : ℝ) (h : 1 / 2 ≤ r) :
    j.ratio r = 1 - j.delta1 / r - j.delta2 / r ^ 2 + (j.qbroad * r) ^ 2 := by
  unfold Jeong.ratio
  refine if_neg (not_lt.2 (le_trans ?_ h))
  unfold dblEps; norm_num

/-- A defect: the maximum is taken at the ends of the range only.  With δ₁ = −4, δ₂ = 4 the width of a bond
of length 2 exceeds the maximum reported for the range [1/2, 100]. -/
theorem jeong_interior_bug (s : V3) :
    (⟨-4, 4, 0, 0⟩ : Jeong).maxWidth [unitSite] (1 / 2) 100 <
      (⟨-4, 4, 0, 0⟩ : Jeong).calculate 2 (msd unitSite unitSite s) := by
  rw [unit_msd]
  refine jeong_exceeds _ _ _ _ _ rfl (by rw [unit_max]; norm_num) ?_
  rw [ratio_at _ _ (by norm_num), ratio_at _ _ (by norm_num), ratio_at _ _ (by norm_num)]
  norm_num

/-- A defect: the correction at `rmin` = 0 is taken as zero, so with negative δ₁ (broadening of close
neighbours) the maximum reported for a range from zero is too small. -/
theorem jeong_rmin_zero_bug (s : V3) :
    (⟨-1, 0, 0, 0⟩ : Jeong).maxWidth [unitSite] 0 100 <
      (⟨-1, 0, 0, 0⟩ : Jeong).calculate 1 (msd unitSite unitSite s) := by
  rw [unit_msd]
  refine jeong_exceeds _ _ _ _ _ rfl (by rw [unit_max]; norm_num) ?_
  have h0 : (⟨-1, 0, 0, 0⟩ : Jeong).ratio 0 = 0 := if_pos dblEps_pos
  rw [h0, ratio_at _ _ (by norm_num), ratio_at _ _ (by norm_num)]
  norm_num

/-- A defect: the maximum is taken over [rmin, rmax], but the calculator also visits bonds beyond `rmax` to
collect their tails; with `qbroad` > 0 these are wider. -/
theorem jeong_tail_bug (s : V3) (r : ℝ) (hr : 10 < r) :
    (⟨0, 0, 1, 0⟩ : Jeong).maxWidth [unitSite] 1 10 <
      (⟨0, 0, 1, 0⟩ : Jeong).calculate r (msd unitSite unitSite s) := by
  rw [unit_msd]
  refine jeong_exceeds _ _ _ _ _ rfl (by rw [unit_max]; norm_num) ?_
  rw [ratio_at _ _ (by norm_num), ratio_at _ _ (by norm_num), ratio_at _ _ (by linarith)]
  norm_num
  nlinarith

/-! ### The constant width -/

/-- C36, C21. The attributes `width`, `uisowidth` and `bisowidth` of a constant width are one quantity: what is
set through one of them is read back from it, and the other ones follow; the ticker clicks when the width
changes. -/
theorem constant_spec (c : ConstW) (v : ℝ) :
    (c.setWidth v).width = v ∧ (c.setUiso v).getUiso = v ∧ (c.setBiso v).getBiso = v ∧
    (c.setUiso v).getBiso = 8 * Real.pi ^ 2 * v ∧
    (0 ≤ v → (c.setUiso v).width = dwCalculate (v + v)) ∧
    ((c.setWidth v).clicks = if v = c.width then c.clicks else c.clicks + 1) ∧
    ∀ (r m rmin rmax : ℝ) (l : List Site), c.calculate r m = c.maxWidth l rmin rmax := by
  have hs := sigma_pos
  have hu : ∀ (c : ConstW) (v : ℝ), (c.setUiso v).getUiso = v := by
    intro c v
    unfold ConstW.setUiso ConstW.getUiso ConstW.setWidth
    simp only
    by_cases hv : v ≥ 0
    · rw [if_pos hv]
      have hq : (1 * sigmaToFwhm * Real.sqrt (2.0 * (1 * v))) / sigmaToFwhm = Real.sqrt (2 * v) := by
        norm_num
        field_simp
      rw [hq, if_pos (Real.sqrt_nonneg _)]
      have := Real.mul_self_sqrt (show 0 ≤ 2 * v by linarith)
      nlinarith
    · rw [if_neg hv]
      have hv' : v < 0 := not_le.1 hv
      have hq : (-1 * sigmaToFwhm * Real.sqrt (2.0 * (-1 * v))) / sigmaToFwhm = -Real.sqrt (2 * -v) := by
        norm_num
        field_simp
      have hp : 0 < Real.sqrt (2 * -v) := Real.sqrt_pos.2 (by linarith)
      rw [hq, if_neg (by linarith)]
      have := Real.mul_self_sqrt (show 0 ≤ 2 * -v by linarith)
      nlinarith
  have hB : UtoB ≠ 0 := by unfold UtoB; have := Real.pi_pos; positivity
  refine ⟨rfl, hu c v, ?_, ?_, ?_, ?_, fun _ _ _ _ _ => rfl⟩
  · unfold ConstW.getBiso ConstW.setBiso
    rw [hu, mul_div_cancel₀ _ hB]
  · unfold ConstW.getBiso
    rw [hu]; unfold UtoB; ring
  · intro hv
    unfold ConstW.setUiso ConstW.setWidth dwCalculate
    simp only
    rw [if_pos hv, if_neg (by linarith)]
    rw [one_mul, one_mul, show (2.0 : ℝ) * v = v + v by norm_num; ring]
  · unfold ConstW.setWidth
    simp only [ne_eq, ite_not, eq_comm]

/-! ### Concrete cases -/

example : Regular ⟨1, 2, 0.1, 0⟩ 0 ∧ (∀ a ∈ [unitSite], Aligned a) ∧ dwMaxWidth [unitSite] ≠ 0 := by
  refine ⟨Or.inl ⟨by norm_num, by norm_num⟩, ?_, ?_⟩
  · intro a ha; rw [List.mem_singleton.1 ha]; intro h; exact absurd h (by simp [unitSite])
  · unfold dwMaxWidth
    rw [unit_max]
    simp only
    rw [if_neg (by norm_num)]
    exact (mul_pos sigma_pos (Real.sqrt_pos.2 (by norm_num))).ne'

end Verif.Peak
