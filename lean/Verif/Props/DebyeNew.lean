import Verif.Props.DebyeSetters
import Mathlib.Tactic.ByContra
import Mathlib.Tactic.Linarith
import Mathlib.Tactic.NormNum
import Mathlib.Analysis.Real.Pi.Bounds
/-
C57: the state of a new `DebyePDFCalculator`.
-/
namespace Verif.Setters
open Verif.PDFGrid Verif.Debye

/-- The parameters while a new calculator is set up. -/
structure Fresh (d : D) : Prop where
  rmin : d.rmin = 0
  rmax : d.rmax ≤ 10
  rstep : d.rstep = 0.01
  maxext : d.maxext = 10
  chi : d.chi ≤ 2000
  qmax : 10 ≤ d.q.qmax

theorem fresh_cache (tails : ℝ → ℝ → ℝ) (d : D) (h : Fresh d) : Fresh (cacheRlimits tails d) := by
  refine ⟨h.rmin, h.rmax, h.rstep, h.maxext, ?_, h.qmax⟩
  have hn : rmaxSteps (d.rmax + d.ext tails) d.rstep ≤ 2000 := by
    by_contra hn
    have h2 := (lt_rmaxSteps (d.rmax + d.ext tails) d.rstep (by rw [h.rstep]; norm_num) 2000).1 (not_le.1 hn)
    have h3 : d.ext tails ≤ 10 := by rw [← h.maxext]; exact min_le_left _ _
    have := h.rmax
    rw [h.rstep] at h2
    push_cast at h2
    linarith
  show (if _ then _ else _) ≤ (2000 : ℤ)
  split
  · exact hn
  · exact h.chi

theorem fresh_oqstep (d : D) (h : Fresh d) : 1 / 2 ^ 26 < d.oqstep := by
  have hq := h.qmax
  have hpi := Real.pi_gt_three
  unfold D.oqstep
  split
  · rename_i hc
    have hr : 0 < d.rcalchi := by
      by_contra hn
      have : d.q.qmax * d.rcalchi / Real.pi ≤ 0 :=
        div_nonpos_of_nonpos_of_nonneg (mul_nonpos_of_nonneg_of_nonpos (by linarith) (not_lt.1 hn)) (by linarith)
      linarith
    have hu : d.rcalchi ≤ 20 := by
      unfold D.rcalchi
      rw [h.rstep]
      have : (d.chi : ℝ) ≤ 2000 := by exact_mod_cast h.chi
      linarith
    rw [lt_div_iff₀ hr]
    nlinarith
  · rw [lt_div_iff₀ (by norm_num)]
    norm_num
    linarith

/-- A new calculator accepts every Q step it computes, and only the Q step changes. -/
theorem fresh_update (tails : ℝ → ℝ → ℝ) (d : D) (h : Fresh d) : ∃ d', updateQstep tails d = .ok d' ∧ Fresh d' ∧
    d'.q = { d.q with qstep := d'.q.qstep } ∧ d'.rmax = d.rmax ∧ d'.qminpdf = d.qminpdf ∧ (d.optimum = true → d'.optimum = true) := by
  have he : Fresh (ensureCached tails d) ∧ (ensureCached tails d).q = d.q ∧ (ensureCached tails d).rmax = d.rmax ∧
      (ensureCached tails d).qminpdf = d.qminpdf ∧ (ensureCached tails d).optimum = d.optimum := by
    unfold ensureCached
    split
    · exact ⟨h, rfl, rfl, rfl, rfl⟩
    · exact ⟨fresh_cache tails d h, rfl, rfl, rfl, rfl⟩
  rw [updateQstep_eq]
  dsimp only
  obtain ⟨h1, h2, h3, h4, h5⟩ := he
  split
  · rw [if_pos (fresh_oqstep _ h1)]
    refine ⟨_, rfl, ?_⟩
    rw [clickIf_fields]
    exact ⟨⟨h1.rmin, h1.rmax, h1.rstep, h1.maxext, h1.chi, h1.qmax⟩, by rw [h2], h3, h4, fun _ => rfl⟩
  · refine ⟨_, rfl, h1, by rw [h2], h3, h4, fun h => by rw [h5, h]⟩

/-- **C57** for a new calculator: the range is 0 to 10 in steps of 0.01, extended by at most 10, Q goes from 0 to 25, the Debye precision is 10⁻⁶, and the
Q step is the optimum one for the range. -/
theorem debye_default (tails : ℝ → ℝ → ℝ) : let d := dctor tails
    d.rmin = 0 ∧ d.rmax = 10 ∧ d.rstep = 0.01 ∧ d.maxext = 10 ∧ d.qminpdf = 0 ∧ d.q.qmin = 0 ∧ d.q.qmax = 25 ∧ d.q.prec = 1e-6 ∧
    d.optimum = true ∧ d.cached = true ∧
    d.q.qstep = if d.q.qmax * d.rcalchi / Real.pi > 4 then Real.pi / d.rcalchi else d.q.qmax / 4 := by
  have f0 : Fresh dnew := ⟨rfl, by norm_num [dnew], rfl, rfl, by norm_num [dnew], by norm_num [dnew]⟩
  -- setRmax
  have f1 : Fresh (pqSetRmax 10 { dnew with cached := if dnew.rmax ≠ 10 then false else dnew.cached }) := by
    unfold pqSetRmax
    rw [clickIf_fields]
    exact ⟨rfl, le_refl _, rfl, rfl, f0.chi, f0.qmax⟩
  obtain ⟨d1, e1, g1, a1, b1, c1, -⟩ := fresh_update tails _ f1
  have s1 : dstep tails dnew (.setRmax 10) = .ok d1 := by
    simp only [dstep]
    rw [if_neg (by rw [throwsNegative_iff]; norm_num), e1]
  -- setQmax
  have f2 : Fresh { d1.clickIf (decide (d1.q.qmax ≠ 25)) with q := { d1.q with qmax := 25 } } := by
    rw [clickIf_fields]
    exact ⟨g1.rmin, g1.rmax, g1.rstep, g1.maxext, g1.chi, by norm_num⟩
  obtain ⟨d2, e2, g2, a2, b2, c2, -⟩ := fresh_update tails _ f2
  have s2 : dstep tails d1 (.setQmax 25) = .ok d2 := by
    simp only [dstep, baseSetQmax]
    rw [if_neg (by rw [throwsNegative_iff]; norm_num)]
    exact e2
  -- setOptimumQstep
  have f3 : Fresh { d2 with optimum := true } := ⟨g2.rmin, g2.rmax, g2.rstep, g2.maxext, g2.chi, g2.qmax⟩
  obtain ⟨d3, e3, g3, a3, b3, c3, o3⟩ := fresh_update tails _ f3
  -- reset
  obtain ⟨d4, e4, g4, a4, b4, c4, o4⟩ := fresh_update tails _ (fresh_cache tails _ g3)
  have ho : d4.optimum = true := o4 (o3 rfl)
  obtain ⟨-, -, -, -, -, -, -, -, hc, -, hq⟩ := reset_parts tails d3 d4 e4
  have e : dctor tails = d4 := by
    simp only [dctor, drun, List.foldl_cons, List.foldl_nil]
    rw [s1]
    simp only [after]
    rw [s2]
    simp only
    rw [show dstep tails d2 .setOptimumQstep = _ from e3]
    simp only
    rw [show dstep tails d3 .reset = _ from e4]
  have hr : d4.rmax = 10 := by
    rw [b4]
    show d3.rmax = 10
    rw [b3]
    show d2.rmax = 10
    rw [b2, clickIf_fields]
    show d1.rmax = 10
    rw [b1]
    unfold pqSetRmax
    rw [clickIf_fields]
  have q1 : d1.q = { dnew.q with qstep := d1.q.qstep } := by
    refine a1.trans ?_
    unfold pqSetRmax
    rw [clickIf_fields]
  have q2 : d2.q = ⟨0, 25, d2.q.qstep, 1e-6⟩ := by
    refine a2.trans ?_
    rw [clickIf_fields]
    show QPar.mk d1.q.qmin 25 _ d1.q.prec = _
    rw [q1]; rfl
  have q3 : d3.q = ⟨0, 25, d3.q.qstep, 1e-6⟩ := by
    refine a3.trans ?_
    show QPar.mk d2.q.qmin d2.q.qmax _ d2.q.prec = _
    rw [q2]
  have q4 : d4.q = ⟨0, 25, d4.q.qstep, 1e-6⟩ := by
    refine a4.trans ?_
    show QPar.mk d3.q.qmin d3.q.qmax _ d3.q.prec = _
    rw [q3]
  have hp : d4.qminpdf = 0 := by
    rw [c4]
    show d3.qminpdf = 0
    rw [c3]
    show d2.qminpdf = 0
    rw [c2, clickIf_fields]
    show d1.qminpdf = 0
    rw [c1]
    unfold pqSetRmax
    rw [clickIf_fields]
    rfl
  intro d
  show (dctor tails).rmin = 0 ∧ _
  have hd : d = d4 := e
  rw [e, hd]
  refine ⟨g4.rmin, hr, g4.rstep, g4.maxext, hp, by rw [q4], by rw [q4], by rw [q4], ho, hc, ?_⟩
  rw [hq ho]
  rfl
end Verif.Setters
