import Verif.Model.Setters
import Verif.Lemmas.PDFGrid
import Mathlib.Tactic.Linarith
import Mathlib.Tactic.Positivity
import Mathlib.Tactic.NormNum
import Mathlib.Analysis.Real.Pi.Bounds
/-
C45: the change-tracked setters of `PDFCalculator` and `DebyePDFCalculator`.
-/
set_option linter.unusedSectionVars false
namespace Verif.Setters
open Verif.PDFGrid

/-! ### PDFCalculator -/

/-- C45 (specification). The arguments that a setter accepts: non-negative numbers, and for `rstep` numbers above
the square root of the rounding error, 2^-26. -/
def POp.Accepted : POp → Prop
  | .setQmin x => 0 ≤ x
  | .setQmax x => 0 ≤ x
  | .setRmin x => 0 ≤ x
  | .setRmax x => 0 ≤ x
  | .setRstep x => 1 / 2 ^ 26 < x
  | .setMaxExtension x => 0 ≤ x

/-- C45 (specification). What an accepted call does to the parameters: it sets the one it names, and `setQmax(0)`
stands for no limit.  Clicks are left open. -/
noncomputable def P.assign (p : P) : POp → P
  | .setQmin x => { p with qmin := x }
  | .setQmax x => { p with qmax := if x = 0 then doubleMax else x }
  | .setRmin x => { p with rmin := x }
  | .setRmax x => { p with rmax := x }
  | .setRstep x => { p with rstep := x }
  | .setMaxExtension x => { p with maxext := x }

theorem throwsNegative_iff (x : ℝ) : throwsNegative x = true ↔ x < 0 := by
  unfold throwsNegative; exact decide_eq_true_iff

theorem throwsNotPositive_iff (x : ℝ) : throwsNotPositive x = true ↔ ¬ (1 / 2 ^ 26 < x) := by
  unfold throwsNotPositive eps
  rw [Bool.not_eq_true', decide_eq_false_iff_not, zero_add]

/-- C45. A setter call throws exactly when its argument is not accepted, and then nothing has changed; otherwise it
sets its parameter and leaves the others alone. -/
theorem p_setters (p : P) (op : POp) :
    (¬ op.Accepted → pstep p op = .error p) ∧
    (op.Accepted → ∃ p', pstep p op = .ok p' ∧ { p' with clicks := p.clicks } = p.assign op) := by
  have neg : ∀ x : ℝ, ¬ 0 ≤ x → throwsNegative x = true := fun x h => (throwsNegative_iff x).2 (not_le.1 h)
  have pos : ∀ x : ℝ, 0 ≤ x → throwsNegative x = false := fun x h => by
    rw [Bool.eq_false_iff, ne_eq, throwsNegative_iff]; exact not_lt.2 h
  cases op with
  | setQmin x =>
    refine ⟨fun h => by simp only [pstep]; rw [if_pos (neg x h)], fun h => ⟨{ p with qmin := x }, ?_, rfl⟩⟩
    simp only [pstep]; rw [pos x h]; rfl
  | setQmax x =>
    refine ⟨fun h => by simp only [pstep]; rw [if_pos (neg x h)], fun h => ?_⟩
    simp only [pstep]; rw [pos x h]
    refine ⟨_, rfl, ?_⟩
    have h : 0 ≤ x := h
    simp only [P.assign]
    by_cases h0 : x = 0
    · subst h0; simp
    · rw [if_pos (lt_of_le_of_ne h (Ne.symm h0)), if_neg h0]
  | setRmin x =>
    refine ⟨fun h => by simp only [pstep]; rw [if_pos (neg x h)], fun h => ?_⟩
    simp only [pstep]; rw [pos x h]; exact ⟨_, rfl, rfl⟩
  | setRmax x =>
    refine ⟨fun h => by simp only [pstep]; rw [if_pos (neg x h)], fun h => ?_⟩
    simp only [pstep]; rw [pos x h]; exact ⟨_, rfl, rfl⟩
  | setRstep x =>
    refine ⟨fun h => by simp only [pstep]; rw [if_pos ((throwsNotPositive_iff x).2 h)], fun h => ?_⟩
    have : throwsNotPositive x = false := by
      rw [Bool.eq_false_iff, ne_eq, throwsNotPositive_iff]; exact not_not.2 h
    simp only [pstep]; rw [this]; exact ⟨_, rfl, rfl⟩
  | setMaxExtension x =>
    refine ⟨fun h => by simp only [pstep]; rw [if_pos (neg x h)], fun h => ?_⟩
    simp only [pstep]; rw [pos x h]; exact ⟨_, rfl, rfl⟩

/-- Parameters that the setters can produce. -/
structure P.Good (p : P) : Prop where
  qmin : 0 ≤ p.qmin
  qmax : 0 < p.qmax
  rmin : 0 ≤ p.rmin
  rmax : 0 ≤ p.rmax
  rstep : 1 / 2 ^ 26 < p.rstep
  maxext : 0 ≤ p.maxext

theorem doubleMax_pos : 0 < doubleMax := by
  unfold doubleMax
  have : (2 : ℝ) ^ 971 < 2 ^ 1024 := by
    apply pow_lt_pow_right₀ <;> norm_num
  exact sub_pos.2 this

theorem p_good_step (p : P) (h : p.Good) (op : POp) : (after (pstep p op)).Good := by
  by_cases ha : op.Accepted
  swap
  · rw [(p_setters p op).1 ha]; exact h
  obtain ⟨p', e, hp⟩ := (p_setters p op).2 ha
  rw [e]
  have : ({ p' with clicks := p.clicks } : P).Good := by
    rw [hp]
    cases op with
    | setQmin x => exact ⟨ha, h.2, h.3, h.4, h.5, h.6⟩
    | setQmax x =>
      refine ⟨h.1, ?_, h.3, h.4, h.5, h.6⟩
      simp only [P.assign]
      split
      · exact doubleMax_pos
      · next h0 => exact lt_of_le_of_ne ha (Ne.symm h0)
    | setRmin x => exact ⟨h.1, h.2, ha, h.4, h.5, h.6⟩
    | setRmax x => exact ⟨h.1, h.2, h.3, ha, h.5, h.6⟩
    | setRstep x => exact ⟨h.1, h.2, h.3, h.4, ha, h.6⟩
    | setMaxExtension x => exact ⟨h.1, h.2, h.3, h.4, h.5, ha⟩
  exact ⟨this.1, this.2, this.3, this.4, this.5, this.6⟩

/-- C45. Whatever calls are made, also ones that throw, the parameters stay in their ranges. -/
theorem p_good (p : P) (h : p.Good) (ops : List POp) :
    (ops.foldl (fun p op => after (pstep p op)) p).Good := by
  induction ops generalizing p with
  | nil => exact h
  | cons op ops ih => exact ih _ (p_good_step p h op)

/-- C45. An accepted call that does not click leaves all parameters that decide the bonds and profiles unchanged,
except that `setQmax` may have raised the limit. -/
theorem p_noclick (p p' : P) (op : POp) (h : pstep p op = .ok p') :
    p.clicks ≤ p'.clicks ∧ (p'.clicks = p.clicks →
      p'.rmin = p.rmin ∧ p'.rmax = p.rmax ∧ p'.rstep = p.rstep ∧ p'.maxext = p.maxext ∧ p.qmax ≤ p'.qmax) := by
  cases op with
  | setQmin x =>
    simp only [pstep] at h
    split at h
    · cases h
    · cases h; exact ⟨le_refl _, fun _ => ⟨rfl, rfl, rfl, rfl, le_refl _⟩⟩
  | setQmax x =>
    simp only [pstep] at h
    split at h
    · cases h
    · cases h
      generalize (if x > 0 then x else doubleMax) = m
      refine ⟨by simp only; split <;> omega, fun hc => ⟨rfl, rfl, rfl, rfl, ?_⟩⟩
      simp only at hc ⊢
      by_contra hlt
      rw [if_pos (not_le.1 hlt)] at hc
      omega
  | setRmin x =>
    simp only [pstep] at h
    split at h
    · cases h
    · cases h
      refine ⟨by simp only; split <;> omega, fun hc => ⟨?_, rfl, rfl, rfl, le_refl _⟩⟩
      simp only at hc ⊢
      by_contra hne
      rw [if_pos (Ne.symm hne)] at hc; omega
  | setRmax x =>
    simp only [pstep] at h
    split at h
    · cases h
    · cases h
      refine ⟨by simp only; split <;> omega, fun hc => ⟨rfl, ?_, rfl, rfl, le_refl _⟩⟩
      simp only at hc ⊢
      by_contra hne
      rw [if_pos (Ne.symm hne)] at hc; omega
  | setRstep x =>
    simp only [pstep] at h
    split at h
    · cases h
    · cases h
      refine ⟨by simp only; split <;> omega, fun hc => ⟨rfl, rfl, ?_, rfl, le_refl _⟩⟩
      simp only at hc ⊢
      by_contra hne
      rw [if_pos (Ne.symm hne)] at hc; omega
  | setMaxExtension x =>
    simp only [pstep] at h
    split at h
    · cases h
    · cases h
      refine ⟨by simp only; split <;> omega, fun hc => ⟨rfl, rfl, rfl, ?_, le_refl _⟩⟩
      simp only at hc ⊢
      by_contra hne
      rw [if_pos (Ne.symm hne)] at hc; omega

theorem ripples_mono (p p' : P) (hr : p'.rstep = p.rstep) (hq : p.qmax ≤ p'.qmax)
    (h0 : 1 / 2 ^ 26 < Fft.getQmax p.qmax p.rstep) : 0 ≤ p'.ripples ∧ p'.ripples ≤ p.ripples := by
  have hpi := Real.pi_pos
  have he : (0 : ℝ) < eps := eps_pos
  have hm : Fft.getQmax p.qmax p.rstep ≤ Fft.getQmax p'.qmax p'.rstep := by
    unfold Fft.getQmax; rw [hr]; exact min_le_min_right _ hq
  have h0' : (0 : ℝ) < Fft.getQmax p.qmax p.rstep := lt_trans (by positivity) h0
  unfold P.ripples
  simp only
  constructor
  · split
    · have : 0 < Fft.getQmax p'.qmax p'.rstep := lt_of_lt_of_le h0' hm
      positivity
    · exact le_refl _
  · split
    · next h =>
      rw [if_pos]
      · gcongr
      · refine ⟨by unfold eps; rw [zero_add]; exact h0, lt_of_le_of_lt hm ?_⟩
        rw [← hr]; exact h.2
    · split
      · positivity
      · exact le_refl _

/-- C45. Without a click a later evaluation visits no bond outside the range of the earlier one and needs no
grid point that was not computed: its calculation range lies within the earlier calculation range.  (Peak tails
depend on the structure and on models with their own tickers, and are the same before and after.) -/
theorem p_noclick_range (p p' : P) (op : POp) (hg : p.Good) (h : pstep p op = .ok p') (hc : p'.clicks = p.clicks)
    (tails : ℝ → ℝ → ℝ) (ht : ∀ a b, 0 ≤ tails a b) (h0 : 1 / 2 ^ 26 < Fft.getQmax p.qmax p.rstep) :
    (p.limits tails).clo ≤ (p'.limits tails).clo ∧ (p'.limits tails).chi ≤ (p.limits tails).chi := by
  obtain ⟨-, h1⟩ := p_noclick p p' op h
  obtain ⟨e1, e2, e3, e4, e5⟩ := h1 hc
  have hd : eps < p.rstep := hg.rstep
  have hd0 : 0 < p.rstep := lt_trans eps_pos hd
  obtain ⟨r0, r1⟩ := ripples_mono p p' e3 e5 h0
  have htt := ht p.rmin p.rmax
  have hle : (rescaled p.maxext p'.ripples (tails p.rmin p.rmax)).2 ≤
      (rescaled p.maxext p.ripples (tails p.rmin p.rmax)).2 := by
    unfold rescaled
    simp only
    split
    · rw [if_pos (by linarith)]
    · next h2 =>
      split
      · simp only; linarith
      · simp only; linarith
  unfold P.limits
  rw [e1, e2, e3, e4]
  unfold rlimits
  simp only
  by_cases hlim : rminSteps p.rmin p.rstep ≥ rmaxSteps p.rmax p.rstep
  · rw [if_pos hlim, if_pos hlim]; exact ⟨le_refl _, le_refl _⟩
  · rw [if_neg hlim, if_neg hlim]
    simp only
    exact ⟨max_le_max_left _ (rminSteps_mono hd (by linarith)), rmaxSteps_mono hd0 (by linarith)⟩

/-- The default parameters of `PDFCalculator` (PDFUtils.hpp:34-43, PDFCalculator.cpp:59-67). -/
noncomputable def pdefault : P := ⟨0, doubleMax, 0, 10, 1 / 100, 10, 0⟩

/-- The hypotheses of `p_noclick_range` hold for the defaults, after `setQmax(20)` and then `setQmax(25)`: the
first clicks, the second does not and shortens the termination ripples. -/
example : pdefault.Good ∧
    (∃ p1 p2, pstep pdefault (.setQmax 20) = .ok p1 ∧ pstep p1 (.setQmax 25) = .ok p2 ∧
      p1.clicks = 1 ∧ p2.clicks = 1 ∧ 1 / 2 ^ 26 < Fft.getQmax p1.qmax p1.rstep ∧ p2.ripples < p1.ripples) := by
  have hbig : (25 : ℝ) < doubleMax := by
    unfold doubleMax
    have : (2 : ℝ) ^ 1024 = 2 ^ 971 * 2 ^ 53 := by rw [← pow_add]
    have h2 : (1 : ℝ) ≤ 2 ^ 971 := one_le_pow₀ (by norm_num)
    rw [this]
    have h3 : (2 : ℝ) ^ 971 * 2 ^ 53 - 2 ^ 971 = 2 ^ 971 * (2 ^ 53 - 1) := by rw [mul_sub, mul_one]
    rw [h3]
    calc (25 : ℝ) < 1 * (2 ^ 53 - 1) := by norm_num
      _ ≤ 2 ^ 971 * (2 ^ 53 - 1) := by
        apply mul_le_mul_of_nonneg_right h2; norm_num
  have hpi := Real.pi_gt_three
  have n20 : throwsNegative 20 = false := by
    rw [Bool.eq_false_iff, ne_eq, throwsNegative_iff]; norm_num
  have n25 : throwsNegative 25 = false := by
    rw [Bool.eq_false_iff, ne_eq, throwsNegative_iff]; norm_num
  have h20 : (20 : ℝ) < Real.pi / (1 / 100) := by rw [div_div_eq_mul_div]; linarith
  have h25 : (25 : ℝ) < Real.pi / (1 / 100) := by rw [div_div_eq_mul_div]; linarith
  refine ⟨⟨le_refl _, doubleMax_pos, le_refl _, by unfold pdefault; norm_num, by unfold pdefault; norm_num,
    by unfold pdefault; norm_num⟩, ⟨0, 20, 0, 10, 1 / 100, 10, 1⟩, ⟨0, 25, 0, 10, 1 / 100, 10, 1⟩, ?_, ?_, rfl, rfl, ?_, ?_⟩
  · unfold pdefault
    simp only [pstep, n20]
    rw [if_neg (by simp), if_pos (by norm_num), if_pos (by linarith)]
  · simp only [pstep, n25]
    rw [if_neg (by simp), if_pos (by norm_num), if_neg (by norm_num)]
  · unfold Fft.getQmax
    rw [min_eq_left h20.le]; norm_num
  · unfold P.ripples Fft.getQmax eps
    simp only
    rw [min_eq_left h20.le, min_eq_left h25.le, if_pos, if_pos]
    · apply div_lt_div_of_pos_left (by positivity) (by norm_num) (by norm_num)
    all_goals
      refine ⟨by norm_num, ?_⟩
      rw [div_div_eq_mul_div]
      have : (1 : ℝ) / 2 ^ 26 < 1 := by norm_num
      linarith

/-- A defect at the edge: from a `Qmax` below 2^-26, which counts as no limit in the extension, the limit can be
raised without a click although the calculation range then grows. -/
theorem p_setQmax_bug : ∃ p p' : P, p.Good ∧ pstep p (.setQmax 1) = .ok p' ∧ p'.clicks = p.clicks ∧
    (p.limits fun _ _ => 0).chi = 1000 ∧ (p'.limits fun _ _ => 0).chi = 2000 := by
  have hpi := Real.pi_gt_three
  have n1 : throwsNegative 1 = false := by
    rw [Bool.eq_false_iff, ne_eq, throwsNegative_iff]; norm_num
  have c1 : rmaxSteps (10 : ℝ) (1 / 100) = 1000 := by
    unfold rmaxSteps
    have : (10 : ℝ) / (1 / 100) = ((1000 : ℤ) : ℝ) := by norm_num
    rw [this, Int.ceil_intCast]
  have c2 : rmaxSteps (20 : ℝ) (1 / 100) = 2000 := by
    unfold rmaxSteps
    have : (20 : ℝ) / (1 / 100) = ((2000 : ℤ) : ℝ) := by norm_num
    rw [this, Int.ceil_intCast]
  have c0 : ¬ rminSteps (0 : ℝ) (1 / 100) ≥ 1000 := by
    have : rminSteps (0 : ℝ) (1 / 100) ≤ 0 := by
      rw [rminSteps_le _ _ (by unfold eps; norm_num)]
      have := eps_pos (K := ℝ)
      push_cast; linarith
    omega
  have hq1 : (1 : ℝ) / 2 ^ 27 ≤ Real.pi / (1 / 100) := by
    rw [div_div_eq_mul_div]
    have : (1 : ℝ) / 2 ^ 27 < 1 := by norm_num
    linarith
  have hq2 : (1 : ℝ) ≤ Real.pi / (1 / 100) := by rw [div_div_eq_mul_div]; linarith
  refine ⟨⟨0, 1 / 2 ^ 27, 0, 10, 1 / 100, 10, 0⟩, ⟨0, 1, 0, 10, 1 / 100, 10, 0⟩,
    ⟨le_refl _, by norm_num, le_refl _, by norm_num, by norm_num, by norm_num⟩, ?_, rfl, ?_, ?_⟩
  · simp only [pstep, n1]
    rw [if_neg (by simp), if_pos (by norm_num), if_neg (by norm_num)]
  · have hr : P.ripples ⟨0, 1 / 2 ^ 27, 0, 10, 1 / 100, 10, 0⟩ = 0 := by
      unfold P.ripples Fft.getQmax eps
      simp only
      rw [min_eq_left hq1, if_neg]
      rintro ⟨h, -⟩
      norm_num at h
    unfold P.limits rlimits
    rw [hr]
    simp only
    rw [c1, if_neg c0]
    unfold rescaled
    simp only
    rw [if_neg (by norm_num)]
    simp only [add_zero, c1]
  · have hr : P.ripples ⟨0, 1, 0, 10, 1 / 100, 10, 0⟩ = 6 * 2 * Real.pi / 1 := by
      unfold P.ripples Fft.getQmax eps
      simp only
      rw [min_eq_left hq2, if_pos]
      refine ⟨by norm_num, ?_⟩
      rw [div_div_eq_mul_div]
      have : (1 : ℝ) / 2 ^ 26 < 1 := by norm_num
      linarith
    unfold P.limits rlimits
    rw [hr]
    simp only
    rw [c1, if_neg c0]
    unfold rescaled
    simp only
    rw [if_pos (by rw [add_zero, div_one]; linarith)]
    simp only
    rw [show (10 : ℝ) + 10 = 20 by norm_num, c2]

end Verif.Setters
