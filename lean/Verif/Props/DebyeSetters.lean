import Verif.Props.Setters
import Mathlib.Tactic.Tauto
/-
C45 and C57: the change-tracked setters of `DebyePDFCalculator` and the range an evaluation uses.
-/
set_option linter.unusedSectionVars false
namespace Verif.Setters
open Verif.PDFGrid

/-! ### Validity in every reachable state -/

/-- C45 (specification). The parameters are in their ranges.  The Debye summation always starts at Q = 0; `qminpdf`
is the `qmin` that the user sees. -/
structure D.Good (d : D) : Prop where
  sumfrom : d.q.qmin = 0
  qmin : 0 ≤ d.qminpdf
  qmax : 0 ≤ d.q.qmax
  qstep : 1 / 2 ^ 26 < d.q.qstep
  rmin : 0 ≤ d.rmin
  rmax : 0 ≤ d.rmax
  rstep : 1 / 2 ^ 26 < d.rstep
  maxext : 0 ≤ d.maxext
  clo : 0 ≤ d.clo
  chi : 0 ≤ d.chi

theorem ripples_nonneg (d : D) : 0 ≤ d.ripples := by
  unfold D.ripples
  split
  · have := Real.pi_pos; positivity
  · exact le_refl _

theorem ext_nonneg (tails : ℝ → ℝ → ℝ) (ht : ∀ a b, 0 ≤ tails a b) (d : D) (h : 0 ≤ d.maxext) : 0 ≤ d.ext tails := by
  unfold D.ext
  exact le_min h (add_nonneg (ripples_nonneg d) (ht _ _))

/-- `updateQstep`, spelled out. -/
theorem updateQstep_eq (tails : ℝ → ℝ → ℝ) (d : D) :
    updateQstep tails d =
      let d1 := ensureCached tails d
      if d1.oqstep ≤ d1.q.qstep ∨ d1.optimum = true then
        if 1 / 2 ^ 26 < d1.oqstep then
          .ok { { d1 with optimum := true }.clickIf (decide (d1.q.qstep ≠ d1.oqstep)) with
            q := { d1.q with qstep := d1.oqstep } }
        else .error { d1 with optimum := true }
      else .ok d1 := by
  unfold updateQstep
  simp only
  generalize ensureCached tails d = d1
  have key : ∀ d2 : D, d2.q = d1.q → baseSetQstep d1.oqstep d2 =
      if 1 / 2 ^ 26 < d1.oqstep then
        .ok { d2.clickIf (decide (d1.q.qstep ≠ d1.oqstep)) with q := { d1.q with qstep := d1.oqstep } }
      else .error d2 := by
    intro d2 hq
    unfold baseSetQstep
    rw [hq]
    by_cases h : (1 : ℝ) / 2 ^ 26 < d1.oqstep
    · have : throwsNotPositive d1.oqstep = false := by
        rw [Bool.eq_false_iff, ne_eq, throwsNotPositive_iff]; exact not_not.2 h
      rw [this, if_pos h]; rfl
    · rw [if_pos ((throwsNotPositive_iff _).2 h), if_neg h]
  by_cases h1 : d1.oqstep ≤ d1.q.qstep
  · have e : (if d1.q.qstep ≥ d1.oqstep then { d1 with optimum := true } else d1) = { d1 with optimum := true } :=
      if_pos h1
    rw [e, if_pos (Or.inl h1)]
    simp only [if_true]
    exact key _ rfl
  · have e : (if d1.q.qstep ≥ d1.oqstep then { d1 with optimum := true } else d1) = d1 := if_neg h1
    rw [e]
    by_cases h2 : d1.optimum = true
    · rw [if_pos h2, if_pos (Or.inr h2)]
      have : { d1 with optimum := true } = d1 := by rw [← h2]
      rw [this]
      exact key _ rfl
    · rw [if_neg h2, if_neg (by tauto)]

theorem cacheRlimits_good (tails : ℝ → ℝ → ℝ) (ht : ∀ a b, 0 ≤ tails a b) (d : D) (h : d.Good) :
    (cacheRlimits tails d).Good := by
  have hd0 : 0 < d.rstep := lt_trans (by positivity) h.rstep
  refine ⟨h.1, h.2, h.3, h.4, h.5, h.6, h.7, h.8, ?_, ?_⟩
  · exact le_max_left _ _
  · unfold cacheRlimits
    simp only
    split
    · unfold rmaxSteps
      apply Int.ceil_nonneg
      have := ext_nonneg tails ht d h.maxext
      have := h.rmax
      positivity
    · exact h.chi

theorem ensureCached_good (tails : ℝ → ℝ → ℝ) (ht : ∀ a b, 0 ≤ tails a b) (d : D) (h : d.Good) :
    (ensureCached tails d).Good := by
  unfold ensureCached
  split
  · exact h
  · exact cacheRlimits_good tails ht d h

theorem clickIf_fields (d : D) (b : Bool) :
    (d.clickIf b) = { d with clicks := if b then d.clicks + 1 else d.clicks } := by
  unfold D.clickIf D.click
  cases b <;> rfl

theorem updateQstep_good (tails : ℝ → ℝ → ℝ) (ht : ∀ a b, 0 ≤ tails a b) (d : D) (h : d.Good) :
    (after (updateQstep tails d)).Good := by
  rw [updateQstep_eq]
  have h1 := ensureCached_good tails ht d h
  simp only
  generalize ensureCached tails d = d1 at h1
  split
  · split
    · next hq =>
      rw [clickIf_fields]
      exact ⟨h1.1, h1.2, h1.3, hq, h1.5, h1.6, h1.7, h1.8, h1.9, h1.10⟩
    · exact ⟨h1.1, h1.2, h1.3, h1.4, h1.5, h1.6, h1.7, h1.8, h1.9, h1.10⟩
  · exact h1

theorem bind_good (e : Except D D) (f : D → Except D D) (h : (after e).Good)
    (hf : ∀ d, d.Good → (after (f d)).Good) : (after (e.bind f)).Good := by
  cases e with
  | ok d => exact hf d h
  | error d => exact h

theorem d_good_step (tails : ℝ → ℝ → ℝ) (ht : ∀ a b, 0 ≤ tails a b) (d : D) (h : d.Good) (op : DOp) :
    (after (dstep tails d op)).Good := by
  have neg : ∀ x : ℝ, throwsNegative x ≠ true → 0 ≤ x := fun x hx => by
    rw [ne_eq, throwsNegative_iff] at hx; exact not_lt.1 hx
  have posv : ∀ x : ℝ, throwsNotPositive x ≠ true → 1 / 2 ^ 26 < x := fun x hx => by
    rw [ne_eq, throwsNotPositive_iff, not_not] at hx; exact hx
  have h1 := h.1; have h2 := h.2; have h3 := h.3; have h4 := h.4; have h5 := h.5; have h6 := h.6
  have h7 := h.7; have h8 := h.8; have h9 := h.9; have h10 := h.10
  cases op with
  | setQmin x =>
    simp only [dstep]
    split
    · exact h
    · next hx =>
      apply bind_good
      · unfold baseSetQmin
        split
        · exact h
        · rw [clickIf_fields]; exact ⟨rfl, h2, h3, h4, h5, h6, h7, h8, h9, h10⟩
      · intro d g; exact ⟨g.1, neg x hx, g.3, g.4, g.5, g.6, g.7, g.8, g.9, g.10⟩
  | setQmax x =>
    simp only [dstep]
    apply bind_good
    · unfold baseSetQmax
      split
      · exact h
      · next hx => rw [clickIf_fields]; exact ⟨h1, h2, neg x hx, h4, h5, h6, h7, h8, h9, h10⟩
    · intro d g; exact updateQstep_good tails ht d g
  | setQstep x =>
    simp only [dstep]
    apply bind_good
    · unfold baseSetQstep
      split
      · exact h
      · next hx => rw [clickIf_fields]; exact ⟨h1, h2, h3, posv x hx, h5, h6, h7, h8, h9, h10⟩
    · intro d g
      exact updateQstep_good tails ht _ ⟨g.1, g.2, g.3, g.4, g.5, g.6, g.7, g.8, g.9, g.10⟩
  | setOptimumQstep =>
    simp only [dstep]
    exact updateQstep_good tails ht _ ⟨h1, h2, h3, h4, h5, h6, h7, h8, h9, h10⟩
  | setPrecision x =>
    simp only [dstep, setPrecision]
    rw [clickIf_fields]; exact ⟨h1, h2, h3, h4, h5, h6, h7, h8, h9, h10⟩
  | setRmin x =>
    simp only [dstep]
    split
    · exact h
    · next hx =>
      unfold pqSetRmin
      rw [clickIf_fields]; exact ⟨h1, h2, h3, h4, neg x hx, h6, h7, h8, h9, h10⟩
  | setRmax x =>
    simp only [dstep]
    split
    · exact h
    · next hx =>
      apply updateQstep_good tails ht
      unfold pqSetRmax
      rw [clickIf_fields]; exact ⟨h1, h2, h3, h4, h5, neg x hx, h7, h8, h9, h10⟩
  | setRstep x =>
    simp only [dstep]
    split
    · exact h
    · next hx => exact ⟨h1, h2, h3, h4, h5, h6, posv x hx, h8, h9, h10⟩
  | setMaxExtension x =>
    simp only [dstep]
    split
    · exact h
    · next hx =>
      apply updateQstep_good tails ht
      split
      · exact ⟨h1, h2, h3, h4, h5, h6, h7, neg x hx, h9, h10⟩
      · exact ⟨h1, h2, h3, h4, h5, h6, h7, neg x hx, h9, h10⟩
  | reset =>
    simp only [dstep]
    exact updateQstep_good tails ht _ (cacheRlimits_good tails ht d h)

/-- C45. In every history of setter calls and evaluations, also when calls throw, the parameters stay in their
ranges. -/
theorem d_good (d : D) (h : d.Good) (ops : List ((ℝ → ℝ → ℝ) × DOp)) (ht : ∀ o ∈ ops, ∀ a b, 0 ≤ o.1 a b) :
    (drun d ops).Good := by
  induction ops generalizing d with
  | nil => exact h
  | cons o ops ih =>
    exact ih _ (d_good_step o.1 (ht o (by simp)) d h o.2) (fun o' ho' => ht o' (by simp [ho']))

/-- The state before the constructor's calls is valid, so every reachable state is. -/
theorem dnew_good : dnew.Good := by
  unfold dnew
  refine ⟨rfl, ?_, ?_, ?_, ?_, ?_, ?_, ?_, ?_, ?_⟩ <;> norm_num

/-! ### Clicks -/

/-- C45 (specification). What the Debye sum over a given set of bonds depends on, and the limits that decide which
bonds are visited, apart from the grid step and the structure. -/
def D.decides (d : D) : Debye.QPar × ℝ × ℝ × ℝ := (d.q, d.rmin, d.rmax, d.maxext)

/-- `d'` came from `d`, with a click if anything that decides the value changed. -/
def Tracked (d d' : D) : Prop := d.clicks ≤ d'.clicks ∧ (d'.clicks = d.clicks → d'.decides = d.decides)

theorem tracked_refl (d : D) : Tracked d d := ⟨le_refl _, fun _ => rfl⟩

theorem tracked_trans {a b c : D} (h : Tracked a b) (g : Tracked b c) : Tracked a c := by
  refine ⟨h.1.trans g.1, fun e => ?_⟩
  have := h.1; have := g.1
  rw [g.2 (by omega), h.2 (by omega)]

theorem tracked_same {d d' : D} (hc : d'.clicks = d.clicks) (hd : d'.decides = d.decides) : Tracked d d' :=
  ⟨by omega, fun _ => hd⟩

theorem tracked_click (d d' : D) (b : Bool) (hc : d'.clicks = if b then d.clicks + 1 else d.clicks)
    (hd : b = false → d'.decides = d.decides) : Tracked d d' := by
  cases b with
  | true => simp only [if_true] at hc; exact ⟨by omega, fun e => by omega⟩
  | false => exact tracked_same (by simpa using hc) (hd rfl)

theorem updateQstep_tracked (tails : ℝ → ℝ → ℝ) (d : D) : Tracked d (after (updateQstep tails d)) := by
  rw [updateQstep_eq]
  have h1 : Tracked d (ensureCached tails d) := by
    unfold ensureCached
    split
    · exact tracked_refl d
    · exact tracked_same rfl rfl
  simp only
  generalize ensureCached tails d = d1 at h1
  apply tracked_trans h1
  split
  · split
    · rw [clickIf_fields]
      refine tracked_click d1 _ (decide (d1.q.qstep ≠ d1.oqstep)) rfl fun hb => ?_
      rw [decide_eq_false_iff_not, not_not] at hb
      unfold after D.decides
      simp only
      rw [← hb]
    · exact tracked_same rfl rfl
  · exact tracked_refl d1

theorem bind_tracked (d : D) (e : Except D D) (f : D → Except D D) (h : Tracked d (after e))
    (hf : ∀ d', Tracked d' (after (f d'))) : Tracked d (after (e.bind f)) := by
  cases e with
  | ok d' => exact tracked_trans h (hf d')
  | error d' => exact h

theorem d_tracked_step (tails : ℝ → ℝ → ℝ) (d : D) (op : DOp) : Tracked d (after (dstep tails d op)) := by
  cases op with
  | setQmin x =>
    simp only [dstep]
    split
    · exact tracked_refl d
    · apply bind_tracked
      · unfold baseSetQmin
        split
        · exact tracked_refl d
        · rw [clickIf_fields]
          refine tracked_click _ _ (decide (d.q.qmin ≠ 0)) rfl fun hb => ?_
          rw [decide_eq_false_iff_not, not_not] at hb
          unfold after D.decides; simp only; rw [← hb]
      · intro d'; exact tracked_same rfl rfl
  | setQmax x =>
    simp only [dstep]
    apply bind_tracked
    · unfold baseSetQmax
      split
      · exact tracked_refl d
      · rw [clickIf_fields]
        refine tracked_click _ _ (decide (d.q.qmax ≠ x)) rfl fun hb => ?_
        rw [decide_eq_false_iff_not, not_not] at hb
        unfold after D.decides; simp only; rw [← hb]
    · intro d'; exact updateQstep_tracked tails d'
  | setQstep x =>
    simp only [dstep]
    apply bind_tracked
    · unfold baseSetQstep
      split
      · exact tracked_refl d
      · rw [clickIf_fields]
        refine tracked_click _ _ (decide (d.q.qstep ≠ x)) rfl fun hb => ?_
        rw [decide_eq_false_iff_not, not_not] at hb
        unfold after D.decides; simp only; rw [← hb]
    · intro d'
      exact tracked_trans (tracked_same (d' := { d' with optimum := false }) rfl rfl) (updateQstep_tracked tails _)
  | setOptimumQstep =>
    simp only [dstep]
    exact tracked_trans (tracked_same (d' := { d with optimum := true }) rfl rfl) (updateQstep_tracked tails _)
  | setPrecision x =>
    simp only [dstep, setPrecision]
    rw [clickIf_fields]
    refine tracked_click _ _ (decide (d.q.prec ≠ x)) rfl fun hb => ?_
    rw [decide_eq_false_iff_not, not_not] at hb
    unfold after D.decides; simp only; rw [← hb]
  | setRmin x =>
    simp only [dstep]
    split
    · exact tracked_refl d
    · unfold pqSetRmin
      rw [clickIf_fields]
      refine tracked_click _ _ (decide (d.rmin ≠ x)) rfl fun hb => ?_
      rw [decide_eq_false_iff_not, not_not] at hb
      unfold after D.decides; simp only; rw [hb]
  | setRmax x =>
    simp only [dstep]
    split
    · exact tracked_refl d
    · refine tracked_trans ?_ (updateQstep_tracked tails _)
      unfold pqSetRmax
      rw [clickIf_fields]
      refine tracked_click _ _ (decide (d.rmax ≠ x)) rfl fun hb => ?_
      rw [decide_eq_false_iff_not, not_not] at hb
      unfold D.decides; simp only; rw [hb]
  | setRstep x =>
    simp only [dstep]
    split
    · exact tracked_refl d
    · exact tracked_same rfl rfl
  | setMaxExtension x =>
    simp only [dstep]
    split
    · exact tracked_refl d
    · refine tracked_trans ?_ (updateQstep_tracked tails _)
      by_cases hx : d.maxext ≠ x
      · rw [if_pos hx]
        exact tracked_click _ _ true rfl (fun h => by cases h)
      · rw [if_neg hx]
        refine tracked_same rfl ?_
        rw [not_not] at hx
        unfold D.decides; simp only; rw [hx]
  | reset =>
    simp only [dstep]
    exact tracked_trans (tracked_same (d' := cacheRlimits tails d) rfl rfl) (updateQstep_tracked tails _)

/-- C45. Over any history of calls, also with exceptions: if the ticker was not clicked, then the Q parameters, the
r range and the extension limit are the same at the end as at the start.  (The step of the r grid is not tracked:
see `setRstep_untracked`.) -/
theorem d_tracked (d : D) (ops : List ((ℝ → ℝ → ℝ) × DOp)) :
    d.clicks ≤ (drun d ops).clicks ∧
    ((drun d ops).clicks = d.clicks →
      (drun d ops).q = d.q ∧ (drun d ops).rmin = d.rmin ∧ (drun d ops).rmax = d.rmax ∧
      (drun d ops).maxext = d.maxext) := by
  have : Tracked d (drun d ops) := by
    induction ops generalizing d with
    | nil => exact tracked_refl d
    | cons o ops ih => exact tracked_trans (d_tracked_step o.1 d o.2) (ih _)
  refine ⟨this.1, fun h => ?_⟩
  have h2 := this.2 h
  unfold D.decides at h2
  simp only [Prod.mk.injEq] at h2
  exact h2

/-! ### Exceptions -/

/-- C45 (specification). The arguments that a setter accepts. -/
def DOp.Accepted : DOp → Prop
  | .setQmin x => 0 ≤ x
  | .setQmax x => 0 ≤ x
  | .setQstep x => 1 / 2 ^ 26 < x
  | .setRmin x => 0 ≤ x
  | .setRmax x => 0 ≤ x
  | .setRstep x => 1 / 2 ^ 26 < x
  | .setMaxExtension x => 0 ≤ x
  | .setOptimumQstep => True
  | .setPrecision _ => True
  | .reset => True

/-- C45. A call with an argument that is not accepted throws and changes nothing. -/
theorem d_reject (tails : ℝ → ℝ → ℝ) (d : D) (op : DOp) (h : ¬ op.Accepted) : dstep tails d op = .error d := by
  have neg : ∀ x : ℝ, ¬ 0 ≤ x → throwsNegative x = true := fun x h => (throwsNegative_iff x).2 (not_le.1 h)
  cases op with
  | setQmin x => simp only [dstep]; rw [if_pos (neg x h)]
  | setQmax x => simp only [dstep, baseSetQmax]; rw [if_pos (neg x h)]; rfl
  | setQstep x => simp only [dstep, baseSetQstep]; rw [if_pos ((throwsNotPositive_iff x).2 h)]; rfl
  | setRmin x => simp only [dstep]; rw [if_pos (neg x h)]
  | setRmax x => simp only [dstep]; rw [if_pos (neg x h)]
  | setRstep x => simp only [dstep]; rw [if_pos ((throwsNotPositive_iff x).2 h)]
  | setMaxExtension x => simp only [dstep]; rw [if_pos (neg x h)]
  | setOptimumQstep => exact absurd trivial h
  | setPrecision x => exact absurd trivial h
  | reset => exact absurd trivial h

theorem updateQstep_error (tails : ℝ → ℝ → ℝ) (d d' : D) (h : updateQstep tails d = .error d') :
    d'.oqstep ≤ 1 / 2 ^ 26 ∧ d'.q = d.q ∧ d'.rmin = d.rmin ∧ d'.rmax = d.rmax ∧ d'.rstep = d.rstep ∧
    d'.maxext = d.maxext ∧ d'.qminpdf = d.qminpdf := by
  rw [updateQstep_eq] at h
  simp only at h
  have h1 : (ensureCached tails d).q = d.q ∧ (ensureCached tails d).rmin = d.rmin ∧
      (ensureCached tails d).rmax = d.rmax ∧ (ensureCached tails d).rstep = d.rstep ∧
      (ensureCached tails d).maxext = d.maxext ∧ (ensureCached tails d).qminpdf = d.qminpdf := by
    unfold ensureCached
    split <;> exact ⟨rfl, rfl, rfl, rfl, rfl, rfl⟩
  generalize ensureCached tails d = d1 at h h1
  split at h
  · split at h
    · cases h
    · next hq =>
      cases h
      exact ⟨not_lt.1 hq, h1⟩
  · cases h

/-- C45. A call with an accepted argument throws only when the optimum Q step for the range, `min(π/r, qmax/4)`, is
not above 2^-26; the exception then comes after the parameter has changed. -/
theorem d_late_throw (tails : ℝ → ℝ → ℝ) (d d' : D) (op : DOp) (ha : op.Accepted)
    (h : dstep tails d op = .error d') : d'.oqstep ≤ 1 / 2 ^ 26 := by
  have neg : ∀ x : ℝ, 0 ≤ x → ¬ throwsNegative x = true := fun x h => by
    rw [throwsNegative_iff]; exact not_lt.2 h
  have posv : ∀ x : ℝ, 1 / 2 ^ 26 < x → ¬ throwsNotPositive x = true := fun x h => by
    rw [throwsNotPositive_iff]; exact not_not.2 h
  cases op with
  | setQmin x =>
    simp only [dstep, baseSetQmin] at h
    rw [if_neg (neg x ha), if_neg (neg 0 (le_refl _))] at h
    cases h
  | setQmax x =>
    simp only [dstep, baseSetQmax] at h
    rw [if_neg (neg x ha)] at h
    exact (updateQstep_error tails _ _ h).1
  | setQstep x =>
    simp only [dstep, baseSetQstep] at h
    rw [if_neg (posv x ha)] at h
    exact (updateQstep_error tails _ _ h).1
  | setOptimumQstep =>
    simp only [dstep] at h
    exact (updateQstep_error tails _ _ h).1
  | setPrecision x => simp only [dstep, setPrecision] at h; cases h
  | setRmin x =>
    simp only [dstep] at h
    rw [if_neg (neg x ha)] at h
    cases h
  | setRmax x =>
    simp only [dstep] at h
    rw [if_neg (neg x ha)] at h
    exact (updateQstep_error tails _ _ h).1
  | setRstep x =>
    simp only [dstep] at h
    rw [if_neg (posv x ha)] at h
    cases h
  | setMaxExtension x =>
    simp only [dstep] at h
    rw [if_neg (neg x ha)] at h
    exact (updateQstep_error tails _ _ h).1
  | reset =>
    simp only [dstep] at h
    exact (updateQstep_error tails _ _ h).1

theorem oqstep_zero (d : D) (h : d.q.qmax = 0) : d.oqstep = 0 := by
  unfold D.oqstep
  rw [h, if_neg (by norm_num)]; norm_num

theorem ensureCached_q (tails : ℝ → ℝ → ℝ) (d : D) : (ensureCached tails d).q = d.q := by
  unfold ensureCached; split <;> rfl

/-- A defect: `setQmax(0)`, an accepted argument, throws after the limit has been changed to 0, and from then on
every evaluation throws too, until `setQmax` is called again. -/
theorem setQmax_zero_bug (tails : ℝ → ℝ → ℝ) (d : D) (h : d.Good) :
    (∃ d', dstep tails d (.setQmax 0) = .error d' ∧ d'.q.qmax = 0) ∧
    ∀ d'' : D, d''.Good → d''.q.qmax = 0 → ∀ tails', ∃ e, dstep tails' d'' .reset = .error e := by
  have key : ∀ (tails : ℝ → ℝ → ℝ) (d : D), d.q.qmax = 0 → 1 / 2 ^ 26 < d.q.qstep →
      ∃ d', updateQstep tails d = .error d' ∧ d'.q.qmax = 0 := by
    intro tails d hq hs
    rw [updateQstep_eq]
    simp only
    have e := ensureCached_q tails d
    generalize ensureCached tails d = d1 at e
    have hz : d1.oqstep = 0 := oqstep_zero d1 (by rw [e, hq])
    rw [if_pos (Or.inl ?_), if_neg ?_]
    · exact ⟨_, rfl, by simp only; rw [e, hq]⟩
    · rw [hz]; norm_num
    · rw [hz, e]
      exact (lt_trans (by positivity) hs).le
  refine ⟨?_, ?_⟩
  · simp only [dstep, baseSetQmax]
    rw [if_neg (by rw [throwsNegative_iff]; norm_num)]
    rw [clickIf_fields]
    exact key tails _ rfl h.qstep
  · intro d'' g hq tails'
    simp only [dstep]
    obtain ⟨e, he, -⟩ := key tails' (cacheRlimits tails' d'') hq g.qstep
    exact ⟨e, he⟩

/-! ### The range used by an evaluation -/

/-- The limits that `reset` computes. -/
theorem reset_parts (tails : ℝ → ℝ → ℝ) (d d' : D) (h : dstep tails d .reset = .ok d') :
    d'.rmin = d.rmin ∧ d'.rmax = d.rmax ∧ d'.rstep = d.rstep ∧ d'.maxext = d.maxext ∧ d'.qminpdf = d.qminpdf ∧
    d'.q = { d.q with qstep := d'.q.qstep } ∧
    d'.clo = (cacheRlimits tails d).clo ∧ d'.chi = (cacheRlimits tails d).chi ∧ d'.cached = true ∧
    d'.q.qstep ≤ d'.oqstep ∧ (d'.optimum = true → d'.q.qstep = d'.oqstep) := by
  simp only [dstep] at h
  rw [updateQstep_eq] at h
  simp only at h
  have e : ensureCached tails (cacheRlimits tails d) = cacheRlimits tails d := rfl
  rw [e] at h
  split at h
  · split at h
    · cases h
      rw [clickIf_fields]
      refine ⟨rfl, rfl, rfl, rfl, rfl, rfl, rfl, rfl, rfl, ?_, ?_⟩
      · exact le_of_eq rfl
      · intro _; rfl
    · cases h
  · next hc =>
    cases h
    rw [not_or] at hc
    exact ⟨rfl, rfl, rfl, rfl, rfl, rfl, rfl, rfl, rfl, (not_le.1 hc.1).le, fun ho => absurd ho hc.2⟩

/-- The extension depends on parameters that `reset` does not change. -/
theorem reset_ext (tails : ℝ → ℝ → ℝ) (d d' : D) (h : dstep tails d .reset = .ok d') : d'.ext tails = d.ext tails := by
  obtain ⟨e1, e2, -, e4, -, e6, -⟩ := reset_parts tails d d' h
  unfold D.ext D.ripples
  have : d'.q.qmax = d.q.qmax := by rw [e6]
  rw [e1, e2, e4, this]

/-- C57. The range an evaluation uses covers the requested range and its extension, exceeding it by less than fifty
steps at the upper end and one at the lower; the Q step satisfies the Nyquist condition for it, and
resolves `qmax` in at least four steps. -/
theorem reset_range (tails : ℝ → ℝ → ℝ) (d d' : D) (ht : ∀ a b, 0 ≤ tails a b) (hg : d.Good)
    (h : dstep tails d .reset = .ok d') :
    d'.rmax + min d'.maxext (d'.ripples + tails d'.rmin d'.rmax) ≤ d'.rcalchi ∧
    d'.rcalchi < d'.rmax + min d'.maxext (d'.ripples + tails d'.rmin d'.rmax) + 50 * d'.rstep ∧
    d'.rmin - min d'.maxext (d'.ripples + tails d'.rmin d'.rmax) - 1 / 2 ^ 26 ≤ d'.rcalclo ∧
    (d'.rcalclo = 0 ∨ d'.rcalclo < d'.rmin - min d'.maxext (d'.ripples + tails d'.rmin d'.rmax) + d'.rstep) ∧
    d'.q.qstep * d'.rcalchi ≤ Real.pi ∧ 4 * d'.q.qstep ≤ d'.q.qmax := by
  obtain ⟨e1, e2, e3, e4, e5, e6, e7, e8, e9, e10, e11⟩ := reset_parts tails d d' h
  have hext := reset_ext tails d d' h
  have hdr : eps < d.rstep := hg.rstep
  have hdr0 : 0 < d.rstep := lt_trans eps_pos hdr
  change d'.rmax + d'.ext tails ≤ _ ∧ _ < d'.rmax + d'.ext tails + _ ∧ d'.rmin - d'.ext tails - _ ≤ _ ∧
    (_ ∨ _ < d'.rmin - d'.ext tails + _) ∧ _
  rw [hext]
  generalize hE : d.ext tails = E
  unfold D.rcalchi D.rcalclo
  rw [e1, e2, e3]
  have hhi : rmaxSteps (d.rmax + E) d.rstep ≤ d'.chi ∧ d'.chi < rmaxSteps (d.rmax + E) d.rstep + 50 := by
    rw [e8]
    unfold cacheRlimits
    simp only
    rw [hE]
    split
    · omega
    · next hc =>
      rw [not_or] at hc
      omega
  have hge : d.rmax + E ≤ (d'.chi : ℝ) * d.rstep := by
    by_contra hlt
    have := (lt_rmaxSteps (d.rmax + E) d.rstep hdr0 d'.chi).2 (not_le.1 hlt)
    omega
  have hlt : (d'.chi : ℝ) * d.rstep < d.rmax + E + 50 * d.rstep := by
    have := (lt_rmaxSteps (d.rmax + E) d.rstep hdr0 (d'.chi - 50)).1 (by omega)
    push_cast at this
    linarith [sub_mul (d'.chi : ℝ) 50 d.rstep]
  refine ⟨hge, hlt, ?_, ?_, ?_, ?_⟩
  · have : d'.clo = max 0 (rminSteps (d.rmin - E) d.rstep) := by rw [e7]; unfold cacheRlimits; simp only; rw [hE]
    have h1 : rminSteps (d.rmin - E) d.rstep ≤ d'.clo := by rw [this]; exact le_max_right _ _
    have := (rminSteps_le (d.rmin - E) d.rstep hdr d'.clo).1 h1
    unfold eps at this
    linarith
  · have : d'.clo = max 0 (rminSteps (d.rmin - E) d.rstep) := by rw [e7]; unfold cacheRlimits; simp only; rw [hE]
    by_cases h0 : d'.clo = 0
    · left; rw [h0]; simp
    · right
      have h1 : ¬ rminSteps (d.rmin - E) d.rstep ≤ d'.clo - 1 := by omega
      rw [rminSteps_le _ _ hdr] at h1
      push_cast at h1
      have := eps_pos (K := ℝ)
      have h3 : ((d'.clo : ℝ) - 1) * d.rstep = d'.clo * d.rstep - d.rstep := by rw [sub_mul, one_mul]
      linarith
  all_goals
    have hg' : d'.Good := by
      have := d_good_step tails ht d hg .reset
      rw [h] at this
      exact this
    have hrc : d'.rcalchi = (d'.chi : ℝ) * d.rstep := by unfold D.rcalchi; rw [e3]
    have hpi := Real.pi_pos
    have hq : 0 < d'.q.qstep := lt_trans (by positivity) hg'.qstep
    have hR0 : 0 ≤ (d'.chi : ℝ) * d.rstep := by
      have := hg'.chi
      have : (0 : ℝ) ≤ d'.chi := by exact_mod_cast this
      positivity
    unfold D.oqstep at e10
    rw [hrc] at e10
    generalize (d'.chi : ℝ) * d.rstep = R at e10 hR0
    split at e10
    · next hc =>
      have hR : 0 < R := by
        rcases hR0.lt_or_eq with h | h
        · exact h
        · rw [← h] at hc; norm_num at hc
      rw [le_div_iff₀ hR] at e10
      first
      | exact e10
      | rw [gt_iff_lt, lt_div_iff₀ hpi] at hc
        by_contra hn
        rw [not_le] at hn
        have := mul_lt_mul_of_pos_right hn hR
        linarith
    · next hc =>
      rw [not_lt, div_le_iff₀ hpi] at hc
      have := mul_le_mul_of_nonneg_right e10 hR0
      linarith

/-- C57. For a fixed structure a second evaluation finds everything as the first one left it: it changes no
parameter, range or flag and does not click. -/
theorem reset_stable (tails : ℝ → ℝ → ℝ) (d d' : D) (h : dstep tails d .reset = .ok d') :
    dstep tails d' .reset = .ok d' := by
  obtain ⟨e1, e2, e3, e4, e5, e6, e7, e8, e9, e10, e11⟩ := reset_parts tails d d' h
  have hext := reset_ext tails d d' h
  have hc : cacheRlimits tails d' = d' := by
    have h1 : (cacheRlimits tails d').clo = d'.clo := by
      rw [e7]
      unfold cacheRlimits
      simp only
      rw [hext, e1, e3]
    have h2 : (cacheRlimits tails d').chi = d'.chi := by
      have : d'.chi = (cacheRlimits tails d).chi := e8
      unfold cacheRlimits at this ⊢
      simp only at this ⊢
      rw [hext, e2, e3]
      split at this
      · rw [this, if_neg (by omega)]
      · rw [this]; split
        · contradiction
        · rfl
    have h3 : (cacheRlimits tails d').cached = d'.cached := by rw [e9]; rfl
    have h4 : cacheRlimits tails d' =
        { d' with clo := (cacheRlimits tails d').clo, chi := (cacheRlimits tails d').chi,
                  cached := (cacheRlimits tails d').cached } := rfl
    rw [h4, h1, h2, h3]
  simp only [dstep]
  rw [hc, updateQstep_eq]
  have hens : ensureCached tails d' = d' := by unfold ensureCached; rw [if_pos e9]
  simp only
  rw [hens]
  -- the Q step is the optimum one or below it
  by_cases hcond : d'.oqstep ≤ d'.q.qstep ∨ d'.optimum = true
  · rw [if_pos hcond]
    have heq : d'.q.qstep = d'.oqstep := by
      rcases hcond with h0 | h0
      · exact le_antisymm e10 h0
      · exact e11 h0
    have hpos : 1 / 2 ^ 26 < d'.oqstep := by
      simp only [dstep] at h
      rw [updateQstep_eq] at h
      simp only at h
      have e : ensureCached tails (cacheRlimits tails d) = cacheRlimits tails d := rfl
      rw [e] at h
      split at h
      · split at h
        · next hq => cases h; rw [clickIf_fields]; exact hq
        · cases h
      · next hn =>
        cases h
        exact absurd hcond hn
    have hopt : d'.optimum = true := by
      rcases hcond with h0 | h0
      · simp only [dstep] at h
        rw [updateQstep_eq] at h
        simp only at h
        have e : ensureCached tails (cacheRlimits tails d) = cacheRlimits tails d := rfl
        rw [e] at h
        split at h
        · split at h
          · cases h; rw [clickIf_fields]
          · cases h
        · next hn =>
          cases h
          exact absurd (Or.inl h0) hn
      · exact h0
    rw [if_pos hpos, clickIf_fields]
    have e0 : decide (d'.q.qstep ≠ d'.oqstep) = false := by
      rw [decide_eq_false_iff_not, not_not]; exact heq
    rw [e0]
    simp only [Bool.false_eq_true, if_false]
    rw [← heq, ← hopt]
  · rw [if_neg hcond]

theorem updateQstep_free (tails : ℝ → ℝ → ℝ) (d d' : D) (ho : d.optimum = false)
    (h : updateQstep tails d = .ok d') :
    d'.q.qstep = min d.q.qstep d'.oqstep ∧ (d'.optimum = true ↔ d'.oqstep ≤ d.q.qstep) := by
  rw [updateQstep_eq] at h
  simp only at h
  have h1 := congrArg Debye.QPar.qstep (ensureCached_q tails d)
  have h2 : (ensureCached tails d).optimum = false := by
    unfold ensureCached
    split <;> exact ho
  generalize ensureCached tails d = d1 at h h1 h2
  rw [h1, h2] at h
  by_cases hc : d1.oqstep ≤ d.q.qstep
  · rw [if_pos (Or.inl hc)] at h
    split at h
    · cases h
      rw [clickIf_fields]
      refine ⟨?_, ?_⟩
      · change d1.oqstep = min d.q.qstep d1.oqstep
        rw [min_eq_right hc]
      · exact ⟨fun _ => hc, fun _ => rfl⟩
    · cases h
  · rw [if_neg (by simp [hc])] at h
    cases h
    refine ⟨by rw [h1, min_eq_left (not_le.1 hc).le], ?_⟩
    exact ⟨fun h => (by rw [h2] at h; cases h), fun h => absurd h hc⟩

/-- C57. `setQstep(x)` gives the step `x`, or the optimum step when that is finer. -/
theorem setQstep_spec (tails : ℝ → ℝ → ℝ) (d d' : D) (x : ℝ) (h : dstep tails d (.setQstep x) = .ok d') :
    d'.q.qstep = min x d'.oqstep ∧ (d'.optimum = true ↔ d'.oqstep ≤ x) := by
  simp only [dstep, baseSetQstep] at h
  by_cases hx : throwsNotPositive x = true
  · rw [if_pos hx] at h; cases h
  rw [if_neg hx, clickIf_fields] at h
  exact updateQstep_free tails _ d' rfl h

/-! ### Defects: the step of the r grid and the history -/

theorem ext_zero (tails : ℝ → ℝ → ℝ) (ht : ∀ a b, 0 ≤ tails a b) (d : D) (h : d.maxext = 0) : d.ext tails = 0 := by
  unfold D.ext
  rw [h]
  exact min_eq_left (add_nonneg (ripples_nonneg d) (ht _ _))

/-- `setRmax` in optimum mode without extension. -/
theorem setRmax_opt (tails : ℝ → ℝ → ℝ) (ht : ∀ a b, 0 ≤ tails a b) (d : D) (x : ℝ) (n : ℤ) (hx : 0 ≤ x)
    (hne : d.rmax ≠ x) (hm : d.maxext = 0) (ho : d.optimum = true)
    (hn : n = if rmaxSteps x d.rstep ≤ d.chi - 50 ∨ rmaxSteps x d.rstep > d.chi then rmaxSteps x d.rstep else d.chi)
    (hq : 4 < d.q.qmax * ((n : ℝ) * d.rstep) / Real.pi) (hp : 1 / 2 ^ 26 < Real.pi / ((n : ℝ) * d.rstep)) :
    ∃ d', dstep tails d (.setRmax x) = .ok d' ∧ d'.q = { d.q with qstep := Real.pi / ((n : ℝ) * d.rstep) } ∧
      d'.rmax = x ∧ d'.rmin = d.rmin ∧ d'.rstep = d.rstep ∧ d'.maxext = 0 ∧ d'.optimum = true ∧ d'.chi = n := by
  simp only [dstep]
  rw [if_neg (by rw [throwsNegative_iff]; exact not_lt.2 hx), if_pos hne]
  unfold pqSetRmax
  rw [clickIf_fields, updateQstep_eq]
  simp only
  unfold ensureCached
  simp only [Bool.false_eq_true, if_false]
  have key : ∀ d0 : D, d0.maxext = 0 → d0.rmax = x → d0.rstep = d.rstep → d0.chi = d.chi → d0.q = d.q →
      d0.optimum = true → d0.rmin = d.rmin →
      (cacheRlimits tails d0).chi = n ∧ (cacheRlimits tails d0).q = d.q ∧ (cacheRlimits tails d0).rmax = x ∧
      (cacheRlimits tails d0).rmin = d.rmin ∧ (cacheRlimits tails d0).rstep = d.rstep ∧
      (cacheRlimits tails d0).maxext = 0 ∧ (cacheRlimits tails d0).optimum = true := by
    intro d0 h1 h2 h3 h4 h5 h6 h7
    refine ⟨?_, h5, h2, h7, h3, h1, h6⟩
    unfold cacheRlimits
    simp only
    rw [ext_zero tails ht d0 h1, h2, h3, h4, add_zero, hn]
  obtain ⟨k1, k2, k3, k4, k5, k6, k7⟩ := key
    { q := d.q, qminpdf := d.qminpdf, rmin := d.rmin, rmax := x, rstep := d.rstep, maxext := d.maxext,
      optimum := d.optimum, clo := d.clo, chi := d.chi, cached := false,
      clicks := if decide (d.rmax ≠ x) then d.clicks + 1 else d.clicks } hm rfl rfl rfl rfl ho rfl
  generalize cacheRlimits tails _ = d1 at k1 k2 k3 k4 k5 k6 k7
  have hoq : d1.oqstep = Real.pi / ((n : ℝ) * d.rstep) := by
    unfold D.oqstep D.rcalchi
    rw [k1, k2, k5, if_pos hq]
  rw [if_pos (Or.inr k7), hoq, if_pos hp, clickIf_fields]
  refine ⟨_, rfl, ?_⟩
  refine ⟨?_, k3, k4, k5, k6, rfl, k1⟩
  change ({ d1.q with qstep := Real.pi / ((n : ℝ) * d.rstep) } : Debye.QPar) = _
  rw [k2]

theorem steps_val (x : ℝ) (n : ℤ) (h : x * 100 = n) : rmaxSteps x (1 / 100) = n := by
  unfold rmaxSteps
  rw [div_div_eq_mul_div, div_one, h, Int.ceil_intCast]

/-- A defect (or a feature with visible effect): the result of an evaluation is not determined by the parameters
and the structure.  After `setRmax(10.25); setRmax(10)` the calculator uses another Q step than after
`setRmax(10)`, because the upper limit is lowered only by fifty steps or more. -/
theorem history_dependence_bug (tails : ℝ → ℝ → ℝ) (ht : ∀ a b, 0 ≤ tails a b) :
    let d : D := { dnew with maxext := 0, optimum := true, q := ⟨0, 25, 0.05, 1e-6⟩ }
    let a := drun d [(tails, .setRmax (41 / 4)), (tails, .setRmax 10)]
    let b := drun d [(tails, .setRmax 10)]
    d.Good ∧ a.rmin = b.rmin ∧ a.rmax = b.rmax ∧ a.rstep = b.rstep ∧ a.maxext = b.maxext ∧ a.q.qmax = b.q.qmax ∧
    a.optimum = b.optimum ∧ a.q.qstep = Real.pi / (41 / 4) ∧ b.q.qstep = Real.pi / 10 := by
  simp only
  have hpi := Real.pi_gt_three
  have hpi4 := Real.pi_lt_four
  have hg : ({ dnew with maxext := 0, optimum := true, q := ⟨0, 25, 0.05, 1e-6⟩ } : D).Good := by
    unfold dnew
    refine ⟨rfl, ?_, ?_, ?_, ?_, ?_, ?_, ?_, ?_, ?_⟩ <;> norm_num
  have hr : ({ dnew with maxext := 0, optimum := true, q := ⟨0, 25, 0.05, 1e-6⟩ } : D).rstep = 1 / 100 := by
    unfold dnew; norm_num
  have hrm : ({ dnew with maxext := 0, optimum := true, q := ⟨0, 25, 0.05, 1e-6⟩ } : D).rmax = 0 := rfl
  have hch : ({ dnew with maxext := 0, optimum := true, q := ⟨0, 25, 0.05, 1e-6⟩ } : D).chi = 0 := rfl
  have hqm : ({ dnew with maxext := 0, optimum := true, q := ⟨0, 25, 0.05, 1e-6⟩ } : D).q.qmax = 25 := rfl
  have hme : ({ dnew with maxext := 0, optimum := true, q := ⟨0, 25, 0.05, 1e-6⟩ } : D).maxext = 0 := rfl
  have hop : ({ dnew with maxext := 0, optimum := true, q := ⟨0, 25, 0.05, 1e-6⟩ } : D).optimum = true := rfl
  generalize ({ dnew with maxext := 0, optimum := true, q := ⟨0, 25, 0.05, 1e-6⟩ } : D) = d at *
  have s1 : rmaxSteps (41 / 4 : ℝ) d.rstep = 1025 := by rw [hr]; exact steps_val _ _ (by norm_num)
  have s2 : rmaxSteps (10 : ℝ) d.rstep = 1000 := by rw [hr]; exact steps_val _ _ (by norm_num)
  obtain ⟨a1, e1, q1, m1, n1, r1, x1, o1, c1⟩ := setRmax_opt tails ht d (41 / 4) 1025 (by norm_num)
    (by rw [hrm]; norm_num) hme hop (by rw [s1, hch]; norm_num)
    (by rw [hqm, hr, lt_div_iff₀ Real.pi_pos]; push_cast; linarith)
    (by rw [hr, lt_div_iff₀ (by norm_num)]; push_cast; norm_num; linarith)
  have s3 : rmaxSteps (10 : ℝ) a1.rstep = 1000 := by rw [r1]; exact s2
  obtain ⟨a2, e2, q2, m2, n2, r2, x2, o2, c2⟩ := setRmax_opt tails ht a1 10 1025 (by norm_num)
    (by rw [m1]; norm_num) x1 o1 (by rw [s3, c1]; norm_num)
    (by rw [q1, hqm, r1, hr, lt_div_iff₀ Real.pi_pos]; push_cast; linarith)
    (by rw [r1, hr, lt_div_iff₀ (by norm_num)]; push_cast; norm_num; linarith)
  obtain ⟨b1, e3, q3, m3, n3, r3, x3, o3, c3⟩ := setRmax_opt tails ht d 10 1000 (by norm_num)
    (by rw [hrm]; norm_num) hme hop (by rw [s2, hch]; norm_num)
    (by rw [hqm, hr, lt_div_iff₀ Real.pi_pos]; push_cast; linarith)
    (by rw [hr, lt_div_iff₀ (by norm_num)]; push_cast; norm_num; linarith)
  have ea : drun d [(tails, .setRmax (41 / 4)), (tails, .setRmax 10)] = a2 := by
    unfold drun
    simp only [List.foldl_cons, List.foldl_nil]
    rw [e1]; simp only [after]; rw [e2]
  have eb : drun d [(tails, .setRmax 10)] = b1 := by
    unfold drun
    simp only [List.foldl_cons, List.foldl_nil]
    rw [e3]; rfl
  rw [ea, eb]
  refine ⟨hg, by rw [n2, n1, n3], by rw [m2, m3], by rw [r2, r1, r3], by rw [x2, x3], by rw [q2, q1, q3], by rw [o2, o3], ?_, ?_⟩
  · rw [q2]; simp only; rw [r1, hr]; norm_num
  · rw [q3]; simp only; rw [hr]; norm_num

/-- A custom Q step below the optimum, no extension. -/
noncomputable def exD : D :=
  { q := ⟨0, 25, 0.05, 1e-6⟩, qminpdf := 0, rmin := 5.05, rmax := 10, rstep := 0.1, maxext := 0,
    optimum := false, clo := 0, chi := 0, cached := false, clicks := 0 }

theorem exD_good : exD.Good := by
  unfold exD
  refine ⟨rfl, ?_, ?_, ?_, ?_, ?_, ?_, ?_, ?_, ?_⟩ <;> norm_num

/-- `reset` with a custom Q step and no extension. -/
theorem reset_custom (tails : ℝ → ℝ → ℝ) (ht : ∀ a b, 0 ≤ tails a b) (d : D) (clo chi : ℤ) (hm : d.maxext = 0)
    (ho : d.optimum = false) (hlo : clo = max 0 (rminSteps d.rmin d.rstep))
    (hhi : chi = if rmaxSteps d.rmax d.rstep ≤ d.chi - 50 ∨ rmaxSteps d.rmax d.rstep > d.chi then
      rmaxSteps d.rmax d.rstep else d.chi)
    (h4 : 4 < d.q.qmax * ((chi : ℝ) * d.rstep) / Real.pi) (hq : d.q.qstep < Real.pi / ((chi : ℝ) * d.rstep)) :
    dstep tails d .reset = .ok { d with clo := clo, chi := chi, cached := true } := by
  have e : cacheRlimits tails d = { d with clo := clo, chi := chi, cached := true } := by
    unfold cacheRlimits
    simp only
    rw [ext_zero tails ht d hm, add_zero, sub_zero, ← hlo, ← hhi]
  simp only [dstep]
  rw [e, updateQstep_eq]
  simp only
  unfold ensureCached
  simp only [if_true]
  rw [if_neg]
  unfold D.oqstep D.rcalchi
  simp only
  rw [if_pos h4, ho]
  simp [hq]

/-- A defect: the step of the r grid decides which bonds an evaluation visits, and `setRstep` does not click.  Here
the lower limit moves from 5.1 to 6 without any click in two evaluations. -/
theorem setRstep_untracked (tails : ℝ → ℝ → ℝ) (ht : ∀ a b, 0 ≤ tails a b) :
    ∃ d1 d2 d3, dstep tails exD .reset = .ok d1 ∧ dstep tails d1 (.setRstep 1) = .ok d2 ∧
      dstep tails d2 .reset = .ok d3 ∧ d1.clicks = 0 ∧ d3.clicks = 0 ∧ d1.q = d3.q ∧
      d1.rcalclo = 5.1 ∧ d1.rcalchi = 10 ∧ d3.rcalclo = 6 ∧ d3.rcalchi = 10 := by
  have hpi := Real.pi_gt_three
  have hpi4 := Real.pi_lt_four
  have r1 : rminSteps (5.05 : ℝ) 0.1 = 51 := by
    apply le_antisymm
    · rw [rminSteps_le _ _ (by unfold eps; norm_num)]; unfold eps; norm_num
    · by_contra h
      have : rminSteps (5.05 : ℝ) 0.1 ≤ 50 := by omega
      rw [rminSteps_le _ _ (by unfold eps; norm_num)] at this
      unfold eps at this; norm_num at this
  have r2 : rminSteps (5.05 : ℝ) 1 = 6 := by
    apply le_antisymm
    · rw [rminSteps_le _ _ (by unfold eps; norm_num)]; unfold eps; norm_num
    · by_contra h
      have : rminSteps (5.05 : ℝ) 1 ≤ 5 := by omega
      rw [rminSteps_le _ _ (by unfold eps; norm_num)] at this
      unfold eps at this; norm_num at this
  have r3 : rmaxSteps (10 : ℝ) 0.1 = 100 := by
    unfold rmaxSteps
    have : (10 : ℝ) / 0.1 = ((100 : ℤ) : ℝ) := by norm_num
    rw [this, Int.ceil_intCast]
  have r4 : rmaxSteps (10 : ℝ) 1 = 10 := by
    unfold rmaxSteps
    have : (10 : ℝ) / 1 = ((10 : ℤ) : ℝ) := by norm_num
    rw [this, Int.ceil_intCast]
  refine ⟨{ exD with clo := 51, chi := 100, cached := true },
    { exD with clo := 51, chi := 100, cached := false, rstep := 1 },
    { exD with clo := 6, chi := 10, cached := true, rstep := 1 }, ?_, ?_, ?_, rfl, rfl, rfl, ?_, ?_, ?_, ?_⟩
  · apply reset_custom tails ht exD 51 100 rfl rfl
    · change (51 : ℤ) = max 0 (rminSteps 5.05 0.1); rw [r1]; rfl
    · change (100 : ℤ) = if rmaxSteps 10 0.1 ≤ 0 - 50 ∨ rmaxSteps 10 0.1 > 0 then rmaxSteps 10 0.1 else 0
      rw [r3]; norm_num
    · change (4 : ℝ) < 25 * (((100 : ℤ) : ℝ) * 0.1) / Real.pi
      rw [lt_div_iff₀ Real.pi_pos]; push_cast; linarith
    · change (0.05 : ℝ) < Real.pi / (((100 : ℤ) : ℝ) * 0.1)
      rw [lt_div_iff₀ (by norm_num)]; push_cast; linarith
  · simp only [dstep]
    rw [if_neg (by rw [throwsNotPositive_iff]; norm_num), if_pos]
    change (0.1 : ℝ) ≠ 1
    norm_num
  · have := reset_custom tails ht { exD with clo := 51, chi := 100, cached := false, rstep := 1 } 6 10 rfl rfl
      (by change (6 : ℤ) = max 0 (rminSteps 5.05 1); rw [r2]; rfl)
      (by
        change (10 : ℤ) = if rmaxSteps 10 1 ≤ 100 - 50 ∨ rmaxSteps 10 1 > 100 then rmaxSteps 10 1 else 100
        rw [r4]; norm_num)
      (by
        change (4 : ℝ) < 25 * (((10 : ℤ) : ℝ) * 1) / Real.pi
        rw [lt_div_iff₀ Real.pi_pos]; push_cast; linarith)
      (by
        change (0.05 : ℝ) < Real.pi / (((10 : ℤ) : ℝ) * 1)
        rw [lt_div_iff₀ (by norm_num)]; push_cast; linarith)
    exact this
  · change ((51 : ℤ) : ℝ) * 0.1 = 5.1; norm_num
  · change ((100 : ℤ) : ℝ) * 0.1 = 10; norm_num
  · change ((6 : ℤ) : ℝ) * 1 = 6; norm_num
  · change ((10 : ℤ) : ℝ) * 1 = 10; norm_num


end Verif.Setters
