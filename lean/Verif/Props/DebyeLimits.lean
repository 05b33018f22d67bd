import Verif.Props.DebyeSetters
import Verif.Props.PDFGrid
/-
C57: the extended range of a `DebyePDFCalculator` between evaluations.
-/
set_option linter.unusedSectionVars false
namespace Verif.Setters
open Verif.PDFGrid

/-- The cached limits, when they are marked as cached, include the grid of the current `rmin`, `rmax` and `rstep`. -/
def D.Covers (d : D) : Prop :=
  d.cached = true → d.clo ≤ rminSteps d.rmin d.rstep ∧ rmaxSteps d.rmax d.rstep ≤ d.chi

/-- `cacheRlimitsData` establishes the inclusion. -/
theorem cacheRlimits_covers (tails : ℝ → ℝ → ℝ) (ht : ∀ a b, 0 ≤ tails a b) (d : D) (h : d.Good) :
    (cacheRlimits tails d).Covers := by
  have hd : eps < d.rstep := h.rstep
  have hd0 : 0 < d.rstep := lt_trans eps_pos hd
  have he := ext_nonneg tails ht d h.maxext
  intro _
  unfold cacheRlimits
  simp only
  constructor
  · apply max_le
    · by_contra hn
      have h1 : rminSteps d.rmin d.rstep ≤ -1 := by omega
      rw [rminSteps_le _ _ hd] at h1
      push_cast at h1
      have := h.rmin
      linarith
    · rw [rminSteps_le _ _ hd]
      have := (rminSteps_le d.rmin d.rstep hd _).1 (le_refl _)
      linarith
  · have h1 : rmaxSteps d.rmax d.rstep ≤ rmaxSteps (d.rmax + d.ext tails) d.rstep := by
      unfold rmaxSteps
      apply Int.ceil_le_ceil
      gcongr
      linarith
    split
    · exact h1
    · next hc => rw [not_or] at hc; omega

theorem ensureCached_covers (tails : ℝ → ℝ → ℝ) (ht : ∀ a b, 0 ≤ tails a b) (d : D) (h : d.Good) (hc : d.Covers) :
    (ensureCached tails d).Covers := by
  unfold ensureCached
  split
  · exact hc
  · exact cacheRlimits_covers tails ht d h

theorem updateQstep_covers (tails : ℝ → ℝ → ℝ) (ht : ∀ a b, 0 ≤ tails a b) (d : D) (h : d.Good) (hc : d.Covers) :
    (after (updateQstep tails d)).Covers := by
  rw [updateQstep_eq]
  have h1 := ensureCached_covers tails ht d h hc
  simp only
  generalize ensureCached tails d = d1 at h1
  split
  · split
    · rw [clickIf_fields]; exact h1
    · exact h1
  · exact h1

theorem bind_covers (e : Except D D) (f : D → Except D D) (h : (after e).Covers) (hg : (after e).Good)
    (hf : ∀ d, d.Good → d.Covers → (after (f d)).Covers) : (after (e.bind f)).Covers := by
  cases e with
  | ok d => exact hf d hg h
  | error d => exact h

theorem d_covers_step (tails : ℝ → ℝ → ℝ) (ht : ∀ a b, 0 ≤ tails a b) (d : D) (h : d.Good) (hc : d.Covers) (op : DOp) :
    (after (dstep tails d op)).Covers := by
  have neg : ∀ x : ℝ, throwsNegative x ≠ true → 0 ≤ x := fun x hx => by
    rw [ne_eq, throwsNegative_iff] at hx; exact not_lt.1 hx
  have posv : ∀ x : ℝ, throwsNotPositive x ≠ true → 1 / 2 ^ 26 < x := fun x hx => by
    rw [ne_eq, throwsNotPositive_iff, not_not] at hx; exact hx
  have h1 := h.1; have h2 := h.2; have h3 := h.3; have h4 := h.4; have h5 := h.5; have h6 := h.6
  have h7 := h.7; have h8 := h.8; have h9 := h.9; have h10 := h.10
  cases op with
  | setQmin x =>
    simp only [dstep]
    split
    · exact hc
    · unfold baseSetQmin
      split
      · exact hc
      · rw [clickIf_fields]; exact hc
  | setQmax x =>
    simp only [dstep]
    apply bind_covers
    · unfold baseSetQmax
      split
      · exact hc
      · rw [clickIf_fields]; exact hc
    · unfold baseSetQmax
      split
      · exact h
      · next hx => rw [clickIf_fields]; exact ⟨h1, h2, neg x hx, h4, h5, h6, h7, h8, h9, h10⟩
    · intro d g gc; exact updateQstep_covers tails ht d g gc
  | setQstep x =>
    simp only [dstep]
    apply bind_covers
    · unfold baseSetQstep
      split
      · exact hc
      · rw [clickIf_fields]; exact hc
    · unfold baseSetQstep
      split
      · exact h
      · next hx => rw [clickIf_fields]; exact ⟨h1, h2, h3, posv x hx, h5, h6, h7, h8, h9, h10⟩
    · intro d g gc
      exact updateQstep_covers tails ht _ ⟨g.1, g.2, g.3, g.4, g.5, g.6, g.7, g.8, g.9, g.10⟩ gc
  | setOptimumQstep =>
    simp only [dstep]
    exact updateQstep_covers tails ht _ ⟨h1, h2, h3, h4, h5, h6, h7, h8, h9, h10⟩ hc
  | setPrecision x =>
    simp only [dstep, setPrecision]
    rw [clickIf_fields]; exact hc
  | setRmin x =>
    simp only [dstep]
    split
    · exact hc
    · unfold pqSetRmin
      rw [clickIf_fields]
      change (if d.rmin ≠ x then false else d.cached) = true → _
      by_cases hx : d.rmin = x
      · rw [if_neg (not_not.2 hx)]; rw [← hx]; exact hc
      · rw [if_pos hx]; intro h; cases h
  | setRmax x =>
    simp only [dstep]
    split
    · exact hc
    · next hx =>
      apply updateQstep_covers tails ht
      · unfold pqSetRmax
        rw [clickIf_fields]; exact ⟨h1, h2, h3, h4, h5, neg x hx, h7, h8, h9, h10⟩
      · unfold pqSetRmax
        rw [clickIf_fields]
        change (if d.rmax ≠ x then false else d.cached) = true → _
        by_cases hx : d.rmax = x
        · rw [if_neg (not_not.2 hx)]; rw [← hx]; exact hc
        · rw [if_pos hx]; intro h; cases h
  | setRstep x =>
    simp only [dstep]
    split
    · exact hc
    · change (if d.rstep ≠ x then false else d.cached) = true → _
      by_cases hx : d.rstep = x
      · rw [if_neg (not_not.2 hx)]; rw [← hx]; exact hc
      · rw [if_pos hx]; intro h; cases h
  | setMaxExtension x =>
    simp only [dstep]
    split
    · exact hc
    · next hx =>
      apply updateQstep_covers tails ht
      · split <;> exact ⟨h1, h2, h3, h4, h5, h6, h7, neg x hx, h9, h10⟩
      · split
        · intro h; cases h
        · exact hc
  | reset =>
    simp only [dstep]
    exact updateQstep_covers tails ht _ (cacheRlimits_good tails ht d h) (cacheRlimits_covers tails ht d h)

theorem d_covers (d : D) (h : d.Good) (hc : d.Covers) (ops : List ((ℝ → ℝ → ℝ) × DOp))
    (ht : ∀ o ∈ ops, ∀ a b, 0 ≤ o.1 a b) : (drun d ops).Covers := by
  induction ops generalizing d with
  | nil => exact hc
  | cons o ops ih =>
    exact ih _ (d_good_step o.1 (ht o (by simp)) d h o.2) (d_covers_step o.1 (ht o (by simp)) d h hc o.2)
      (fun o' ho' => ht o' (by simp [ho']))

/-- C57. At every moment of every history of setter calls, attribute queries and evaluations of any structures, also
when calls throw, the range `extendedrmin`, `extendedrmax` that the calculator reports contains the whole grid
`getRgrid()` of the limits set at that moment.  (Setters that change the extension without refreshing the cached
limits can make the range stale, and never smaller than the grid.) -/
theorem extended_covers (ops : List ((ℝ → ℝ → ℝ) × DOp)) (ht : ∀ o ∈ ops, ∀ a b, 0 ≤ o.1 a b)
    (tails : ℝ → ℝ → ℝ) (hq : ∀ a b, 0 ≤ tails a b) :
    let d := drun dnew ops
    ∀ r ∈ rgrid d.rmin d.rmax d.rstep,
      (ensureCached tails d).rcalclo ≤ r ∧ r < (ensureCached tails d).rcalchi := by
  intro d r hr
  have hg : d.Good := d_good dnew dnew_good ops ht
  have hcov : d.Covers := d_covers dnew dnew_good (by intro h; cases h) ops ht
  have hec := ensureCached_covers tails hq d hg hcov
  have hcache : (ensureCached tails d).cached = true := by
    unfold ensureCached
    split
    · assumption
    · rfl
  have hs : (ensureCached tails d).rmin = d.rmin ∧ (ensureCached tails d).rmax = d.rmax ∧
      (ensureCached tails d).rstep = d.rstep := by
    unfold ensureCached
    split
    · exact ⟨rfl, rfl, rfl⟩
    · exact ⟨rfl, rfl, rfl⟩
  obtain ⟨h1, h2⟩ := hec hcache
  rw [hs.1, hs.2.2] at h1
  rw [hs.2.1, hs.2.2] at h2
  have hd : eps < d.rstep := hg.rstep
  have hd0 : 0 < d.rstep := lt_trans eps_pos hd
  unfold rgrid intRange at hr
  simp only [List.map_map, List.mem_map, List.mem_range, Function.comp] at hr
  obtain ⟨k, hk, rfl⟩ := hr
  unfold D.rcalclo D.rcalchi
  rw [hs.2.2]
  constructor
  · apply mul_le_mul_of_nonneg_right _ hd0.le
    exact_mod_cast (by omega : (ensureCached tails d).clo ≤ rminSteps d.rmin d.rstep + (k : ℤ))
  · apply mul_lt_mul_of_pos_right _ hd0
    exact_mod_cast (by omega : rminSteps d.rmin d.rstep + (k : ℤ) < (ensureCached tails d).chi)

/-- `updateQstep` leaves the r limits alone. -/
theorem updateQstep_r (tails : ℝ → ℝ → ℝ) (d : D) : (after (updateQstep tails d)).rmin = d.rmin ∧
    (after (updateQstep tails d)).rmax = d.rmax ∧ (after (updateQstep tails d)).rstep = d.rstep := by
  rw [updateQstep_eq]
  have h : (ensureCached tails d).rmin = d.rmin ∧ (ensureCached tails d).rmax = d.rmax ∧
      (ensureCached tails d).rstep = d.rstep := by
    unfold ensureCached
    split
    · exact ⟨rfl, rfl, rfl⟩
    · exact ⟨rfl, rfl, rfl⟩
  simp only
  generalize ensureCached tails d = d1 at h
  split
  · split
    · rw [clickIf_fields]; exact h
    · exact h
  · exact h

/-- The theorem is about a grid with points: after `setRmax(10)` on a new calculator the grid contains 1. -/
example (tails : ℝ → ℝ → ℝ) : (1 : ℝ) ∈ rgrid (drun dnew [(tails, .setRmax 10)]).rmin
    (drun dnew [(tails, .setRmax 10)]).rmax (drun dnew [(tails, .setRmax 10)]).rstep := by
  have h : (drun dnew [(tails, .setRmax 10)]).rmin = 0 ∧ (drun dnew [(tails, .setRmax 10)]).rmax = 10 ∧
      (drun dnew [(tails, .setRmax 10)]).rstep = 0.01 := by
    have h0 : ¬ throwsNegative (10 : ℝ) = true := by rw [throwsNegative_iff]; norm_num
    simp only [drun, List.foldl, dstep]
    rw [if_neg h0]
    obtain ⟨a, b, c⟩ := updateQstep_r tails
      (pqSetRmax 10 { dnew with cached := if dnew.rmax ≠ 10 then false else dnew.cached })
    rw [a, b, c]
    unfold pqSetRmax
    rw [clickIf_fields]
    exact ⟨rfl, rfl, rfl⟩
  rw [h.1, h.2.1, h.2.2, (rgrid_exact (0 : ℝ) 10 0.01 (by norm_num)).1]
  exact ⟨100, by norm_num, by norm_num, by norm_num⟩

end Verif.Setters
