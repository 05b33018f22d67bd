import Verif.Props.DebyeSetters
import Verif.Props.Fft
/-
C58: the PDF of the Debye calculator is the sine transform of F(Q), interpolated to the r grid, and no index
leaves its array (with one exception at the edge).
-/
set_option linter.unusedSectionVars false
namespace Verif.Debye
open Verif.PDFGrid Verif.Fft Verif.Setters

/-- C58 (specification). F(Q) on the calculator's Q grid with the points below `qmin` cut off (within the tolerance
2^-26). -/
noncomputable def cut (qmin qstep : ℝ) (f : List ℝ) (k : Nat) : ℝ :=
  if qmin - 1 / 2 ^ 26 ≤ k * qstep then f.getD k 0 else 0

/-- C58 (specification). The reduced PDF at `r`: sine transform of F(Q) sampled at steps of `qstep`. -/
noncomputable def sinePDF (qmin qstep : ℝ) (f : List ℝ) (r : ℝ) : ℝ :=
  2 / Real.pi * qstep * ∑ k ∈ Finset.range f.length, cut qmin qstep f k * Real.sin (k * qstep * r)

theorem getD_replicate_append (n : Nat) (l : List ℝ) (k : Nat) :
    (List.replicate n (0 : ℝ) ++ l).getD k 0 = if k < n then 0 else l.getD (k - n) 0 := by
  simp only [List.getD_eq_getElem?_getD]
  by_cases h : k < n
  · rw [if_pos h, List.getElem?_append_left (by simpa using h), List.getElem?_replicate, if_pos h]; rfl
  · rw [if_neg h, List.getElem?_append_right (by simpa using h), List.length_replicate]

theorem getD_append_zeros (l : List ℝ) (n k : Nat) : (l ++ List.replicate n (0 : ℝ)).getD k 0 = l.getD k 0 := by
  simp only [List.getD_eq_getElem?_getD]
  by_cases h : k < l.length
  · rw [List.getElem?_append_left h]
  · rw [List.getElem?_append_right (by omega), List.getElem?_eq_none (l := l) (by omega), List.getElem?_replicate]
    split <;> rfl

theorem getD_drop (l : List ℝ) (n k : Nat) : (l.drop n).getD k 0 = l.getD (n + k) 0 := by
  simp only [List.getD_eq_getElem?_getD, List.getElem?_drop]

/-- The padded array holds the cut F(Q). -/
theorem padF_spec (qmin qstep rstep : ℝ) (f : List ℝ) (hq : 1 / 2 ^ 26 < qstep) (h0 : 0 ≤ qmin) :
    ((padF qmin qstep rstep f).length : ℤ) = max (f.length : ℤ) ⌈Real.pi / rstep / qstep⌉ ∧
    ∀ k, (padF qmin qstep rstep f).getD k 0 = cut qmin qstep f k := by
  have hq' : (eps : ℝ) < qstep := hq
  have hq0 : 0 < qstep := lt_trans eps_pos hq'
  have hns : qminSteps qmin qstep = rminSteps qmin qstep := by
    unfold qminSteps rminSteps; rw [if_neg (not_le.2 hq0)]
  have hn0 : 0 ≤ qminSteps qmin qstep := by rw [hns]; exact rminSteps_nonneg hq' h0
  have hiff : ∀ k : Nat, qminSteps qmin qstep ≤ (k : ℤ) ↔ qmin - 1 / 2 ^ 26 ≤ k * qstep := by
    intro k
    rw [hns, rminSteps_le _ _ hq']
    unfold eps
    rw [Int.cast_natCast]
  obtain ⟨n, hn⟩ : ∃ n, n = qminSteps qmin qstep := ⟨_, rfl⟩
  rw [← hn] at hn0 hiff
  obtain ⟨m, hm⟩ : ∃ m : Nat, m = (min n (f.length : ℤ)).toNat := ⟨_, rfl⟩
  have hdef : padF qmin qstep rstep f = (List.replicate m 0 ++ f.drop m) ++ List.replicate (⌈Real.pi / rstep / qstep⌉ -
        ((List.replicate m (0 : ℝ) ++ f.drop m).length : ℤ)).toNat 0 := by
    rw [hm, hn]; rfl
  have hmf : m ≤ f.length := by omega
  have hl : (List.replicate m (0 : ℝ) ++ f.drop m).length = f.length := by
    rw [List.length_append, List.length_replicate, List.length_drop]; omega
  rw [hdef, hl]
  refine ⟨?_, ?_⟩
  · rw [List.length_append, hl, List.length_replicate]; omega
  · intro k
    rw [getD_append_zeros, getD_replicate_append]
    unfold cut
    by_cases hk : k < m
    · rw [if_pos hk, if_neg]
      rw [← hiff]; omega
    · rw [if_neg hk, getD_drop, show m + (k - m) = k by omega]
      by_cases hkn : n ≤ (k : ℤ)
      · rw [if_pos ((hiff k).1 hkn)]
      · rw [if_neg (fun h => hkn ((hiff k).2 h)), List.getD_eq_getElem?_getD, List.getElem?_eq_none (by omega)]; rfl

/-- The transform of the padded array. -/
theorem gpad_spec (qmin qstep rstep : ℝ) (f : List ℝ) (hq : 1 / 2 ^ 26 < qstep) (h0 : 0 ≤ qmin) (hr : 0 < rstep) :
    ∃ N : Nat, (fftftog (padF qmin qstep rstep f) qstep 0).length = N ∧ (∃ e : Nat, N = 2 ^ e) ∧ f.length ≤ N ∧
      drpad N qstep ≤ rstep ∧ 0 < drpad N qstep ∧ drpad N qstep * N = Real.pi / qstep ∧
      ∀ j, j < N → (fftftog (padF qmin qstep rstep f) qstep 0).getD j 0 =
        sinePDF qmin qstep f (j * drpad N qstep) := by
  have hpi := Real.pi_pos
  have hq0 : 0 < qstep := lt_trans (by positivity) hq
  obtain ⟨hl, hv⟩ := padF_spec qmin qstep rstep f hq h0
  have hc : 0 < ⌈Real.pi / rstep / qstep⌉ := Int.ceil_pos.2 (by positivity)
  have hne : padF qmin qstep rstep f ≠ [] := by
    intro h; rw [h] at hl; simp at hl; omega
  have hs := fftgtof_spec (padF qmin qstep rstep f) qstep 0 hne hq0 (le_refl _)
  simp only [zero_div, round_zero, zero_add] at hs
  obtain ⟨s1, s2, -, s4⟩ := hs
  have hlen : (fftftog (padF qmin qstep rstep f) qstep 0).length = (fftgtof (padF qmin qstep rstep f) qstep 0).length := by
    unfold fftftog; rw [List.length_map]
  obtain ⟨N, hN⟩ : ∃ N, N = (fftgtof (padF qmin qstep rstep f) qstep 0).length := ⟨_, rfl⟩
  rw [← hN] at s1 s2 s4 hlen
  have hNpos : 0 < N := by omega
  have hNr : (0 : ℝ) < N := by exact_mod_cast hNpos
  refine ⟨N, hlen, s1, by omega, ?_, by unfold drpad; positivity, ?_, ?_⟩
  · have h1 : Real.pi / rstep / qstep ≤ N := by
      have h2 : ⌈Real.pi / rstep / qstep⌉ ≤ (N : ℤ) := by omega
      have := Int.ceil_le.1 h2
      exact_mod_cast this
    unfold drpad
    rw [div_le_iff₀ (by positivity)]
    rw [div_div, div_le_iff₀ (by positivity)] at h1
    calc Real.pi ≤ N * (rstep * qstep) := h1
      _ = rstep * (N * qstep) := by ring
  · unfold drpad; field_simp
  · intro j hj
    have h1 := s4 j hj
    unfold fftftog
    rw [List.getD_eq_getElem?_getD, List.getElem?_map, List.getElem?_eq_getElem (by omega)]
    rw [List.getD_eq_getElem _ _ (by omega)] at h1
    simp only [Option.map_some, Option.getD_some]
    rw [h1]
    unfold sineTransform sinePDF
    have hsum : ∑ i ∈ Finset.range (padF qmin qstep rstep f).length,
        (padF qmin qstep rstep f).getD i 0 * Real.sin (j * (Real.pi / (N * qstep)) * (((0 : ℤ) + i) * qstep)) =
        ∑ k ∈ Finset.range f.length, cut qmin qstep f k * Real.sin (k * qstep * (j * drpad N qstep)) := by
      have hle : f.length ≤ (padF qmin qstep rstep f).length := by omega
      rw [← Finset.sum_range_add_sum_Ico _ hle]
      have hz : ∑ k ∈ Finset.Ico f.length (padF qmin qstep rstep f).length,
          (padF qmin qstep rstep f).getD k 0 * Real.sin (j * (Real.pi / (N * qstep)) * (((0 : ℤ) + k) * qstep)) = 0 := by
        apply Finset.sum_eq_zero
        intro k hk
        rw [Finset.mem_Ico] at hk
        rw [hv, cut, List.getD_eq_getElem?_getD, List.getElem?_eq_none (by omega)]
        simp
      rw [hz, add_zero]
      apply Finset.sum_congr rfl
      intro k _
      rw [hv]
      congr 2
      unfold drpad
      push_cast
      ring
    rw [hsum]
    generalize ∑ k ∈ Finset.range f.length, cut qmin qstep f k * Real.sin (k * qstep * (j * drpad N qstep)) = X
    norm_num
    ring

theorem mapM_option {α β : Type} (f : α → Option β) (g : α → β) (l : List α) (h : ∀ x ∈ l, f x = some (g x)) :
    l.mapM f = some (l.map g) := by
  induction l with
  | nil => rfl
  | cons x xs ih =>
    rw [List.mapM_cons, h x (by simp), ih (fun y hy => h y (by simp [hy]))]
    rfl

/-- The interpolation loop at one point. -/
theorem interp_spec (g : List ℝ) (dr r : ℝ) (hd : 0 < dr) (h0 : 0 ≤ r) (hr : r / dr < (g.length : ℝ) - 1) :
    interp g dr r = some ((1 - (r / dr - ⌊r / dr⌋)) * g.getD ⌊r / dr⌋.toNat 0 +
      (r / dr - ⌊r / dr⌋) * g.getD (⌊r / dr⌋.toNat + 1) 0) := by
  have hx : 0 ≤ r / dr := by positivity
  have hf0 : 0 ≤ ⌊r / dr⌋ := Int.floor_nonneg.2 hx
  have hlt : ⌊r / dr⌋ + 1 < (g.length : ℤ) := by
    have h1 : (⌊r / dr⌋ : ℝ) ≤ r / dr := Int.floor_le _
    have : (⌊r / dr⌋ : ℝ) + 1 < (g.length : ℝ) := by linarith
    exact_mod_cast this
  unfold interp
  simp only
  rw [if_pos hf0]
  have e : (⌊r / dr⌋ + 1).toNat = ⌊r / dr⌋.toNat + 1 := by omega
  rw [e]
  rw [List.getElem?_eq_getElem (by omega), List.getElem?_eq_getElem (by omega)]
  simp only [Option.bind_some, Option.map_some]
  rw [List.getD_eq_getElem _ _ (by omega), List.getD_eq_getElem _ _ (by omega)]

/-- C58. After an evaluation has set the range (`reset`), for an F(Q) array `f` and any `qmin`: the PDF has one
value per point of the r grid, and the value at `r` is the linear interpolation, between neighbouring points
`j·δ ≤ r < (j+1)·δ`, of the sine transform of F(Q) cut at `qmin`, where `δ ≤ rstep`.  All grid points are within the
transformed array; the hypothesis `hedge` leaves out the case that the last grid point falls on the last array
element (`interp_edge_bug`). -/
theorem debye_pdf_partial (tails : ℝ → ℝ → ℝ) (ht : ∀ a b, 0 ≤ tails a b) (d d' : D) (hg : d.Good)
    (h : dstep tails d .reset = .ok d') (qmin : ℝ) (h0 : 0 ≤ qmin) (f : List ℝ) :
    ∃ (N : Nat) (δ : ℝ), 0 < δ ∧ δ ≤ d'.rstep ∧ δ * N = Real.pi / d'.q.qstep ∧
      (∀ r ∈ rgrid d'.rmin d'.rmax d'.rstep, 0 ≤ r ∧ r / δ ≤ (N : ℝ) - 1) ∧
      ((∀ r ∈ rgrid d'.rmin d'.rmax d'.rstep, r / δ ≠ (N : ℝ) - 1) →
        getPDFAtQmin qmin d'.q.qstep d'.rmin d'.rmax d'.rstep f =
          some ((rgrid d'.rmin d'.rmax d'.rstep).map fun r =>
            (1 - (r / δ - ⌊r / δ⌋)) * sinePDF qmin d'.q.qstep f (⌊r / δ⌋ * δ) +
              (r / δ - ⌊r / δ⌋) * sinePDF qmin d'.q.qstep f ((⌊r / δ⌋ + 1) * δ))) := by
  have hg' : d'.Good := by
    have := d_good_step tails ht d hg .reset
    rw [h] at this
    exact this
  obtain ⟨c1, -, -, -, c5, -⟩ := reset_range tails d d' ht hg h
  have hrs : (eps : ℝ) < d'.rstep := hg'.rstep
  have hrs0 : 0 < d'.rstep := lt_trans eps_pos hrs
  have hq0 : 0 < d'.q.qstep := lt_trans (by positivity) hg'.qstep
  obtain ⟨N, hN, hpow, hNf, hdr, hdr0, hdrN, hv⟩ := gpad_spec qmin d'.q.qstep d'.rstep f hg'.qstep h0 hrs0
  obtain ⟨δ, hδ⟩ : ∃ δ, δ = drpad N d'.q.qstep := ⟨_, rfl⟩
  rw [← hδ] at hdr hdr0 hdrN hv
  have hext := ext_nonneg tails ht d' hg'.maxext
  change d'.rmax + d'.ext tails ≤ d'.rcalchi at c1
  have hgrid : ∀ r ∈ rgrid d'.rmin d'.rmax d'.rstep, 0 ≤ r ∧ r / δ ≤ (N : ℝ) - 1 := by
    intro r hr
    unfold rgrid at hr
    rw [List.mem_map] at hr
    obtain ⟨n, hn, rfl⟩ := hr
    rw [mem_intRange] at hn
    have hn0 : 0 ≤ n := (rminSteps_nonneg hrs hg'.rmin).trans hn.1
    have hn0' : (0 : ℝ) ≤ n := by exact_mod_cast hn0
    refine ⟨by positivity, ?_⟩
    have hlt : (n : ℝ) * d'.rstep < d'.rmax := (lt_rmaxSteps _ _ hrs0 n).1 hn.2
    have hlt2 : (n : ℝ) * d'.rstep < (d'.chi : ℝ) * d'.rstep := by
      have : d'.rcalchi = (d'.chi : ℝ) * d'.rstep := rfl
      linarith
    have hnc : n + 1 ≤ d'.chi := by
      have h3 : (n : ℝ) < d'.chi := lt_of_mul_lt_mul_right hlt2 hrs0.le
      have : n < d'.chi := by exact_mod_cast h3
      omega
    have hnc' : ((n : ℝ) + 1) * d'.rstep ≤ d'.rcalchi := by
      have : ((n : ℝ) + 1) ≤ d'.chi := by exact_mod_cast hnc
      exact mul_le_mul_of_nonneg_right this hrs0.le
    have hny : d'.rcalchi ≤ δ * N := by
      rw [hdrN, le_div_iff₀ hq0, mul_comm]; exact c5
    rw [div_le_iff₀ hdr0]
    have e1 : ((N : ℝ) - 1) * δ = δ * N - δ := by ring
    have e2 : ((n : ℝ) + 1) * d'.rstep = n * d'.rstep + d'.rstep := by ring
    rw [e1]
    linarith
  refine ⟨N, δ, hdr0, hdr, hdrN, hgrid, ?_⟩
  intro hedge
  unfold getPDFAtQmin
  simp only
  rw [hN, ← hδ]
  apply mapM_option
  intro r hr
  obtain ⟨r0, r1⟩ := hgrid r hr
  have r2 : r / δ < (N : ℝ) - 1 := lt_of_le_of_ne r1 (hedge r hr)
  rw [interp_spec _ δ r hdr0 r0 (by rw [hN]; exact r2)]
  have hx : 0 ≤ r / δ := by positivity
  have hf0 : 0 ≤ ⌊r / δ⌋ := Int.floor_nonneg.2 hx
  have hlt : ⌊r / δ⌋ + 1 < (N : ℤ) := by
    have h1 : (⌊r / δ⌋ : ℝ) ≤ r / δ := Int.floor_le _
    have : (⌊r / δ⌋ : ℝ) + 1 < (N : ℝ) := by linarith
    exact_mod_cast this
  have hcast : ((⌊r / δ⌋.toNat : ℕ) : ℝ) = (⌊r / δ⌋ : ℝ) := by
    have : ((⌊r / δ⌋.toNat : ℕ) : ℤ) = ⌊r / δ⌋ := by omega
    exact_mod_cast this
  rw [hv _ (by omega), hv _ (by omega)]
  push_cast
  rw [hcast]

/-- C58. The extension excludes the edge case: with an extension of at least one step of the r grid (as with the
default settings) the PDF is always computed. -/
theorem debye_pdf (tails : ℝ → ℝ → ℝ) (ht : ∀ a b, 0 ≤ tails a b) (d d' : D) (hg : d.Good)
    (h : dstep tails d .reset = .ok d') (hx : d'.rstep ≤ min d'.maxext (d'.ripples + tails d'.rmin d'.rmax))
    (qmin : ℝ) (h0 : 0 ≤ qmin) (f : List ℝ) :
    ∃ δ : ℝ, 0 < δ ∧ δ ≤ d'.rstep ∧
      getPDFAtQmin qmin d'.q.qstep d'.rmin d'.rmax d'.rstep f =
        some ((rgrid d'.rmin d'.rmax d'.rstep).map fun r =>
          (1 - (r / δ - ⌊r / δ⌋)) * sinePDF qmin d'.q.qstep f (⌊r / δ⌋ * δ) +
            (r / δ - ⌊r / δ⌋) * sinePDF qmin d'.q.qstep f ((⌊r / δ⌋ + 1) * δ)) := by
  obtain ⟨N, δ, a1, a2, a3, -, a5⟩ := debye_pdf_partial tails ht d d' hg h qmin h0 f
  obtain ⟨c1, -, -, -, c5, -⟩ := reset_range tails d d' ht hg h
  have hg' : d'.Good := by
    have := d_good_step tails ht d hg .reset
    rw [h] at this
    exact this
  have hq0 : 0 < d'.q.qstep := lt_trans (by positivity) hg'.qstep
  have hrs0 : 0 < d'.rstep := lt_trans (by positivity) hg'.rstep
  refine ⟨δ, a1, a2, a5 ?_⟩
  intro r hr
  apply ne_of_lt
  unfold rgrid at hr
  rw [List.mem_map] at hr
  obtain ⟨n, hn, rfl⟩ := hr
  rw [mem_intRange] at hn
  have hlt : (n : ℝ) * d'.rstep < d'.rmax := (lt_rmaxSteps _ _ hrs0 n).1 hn.2
  have hny : d'.rcalchi ≤ δ * N := by
    rw [a3, le_div_iff₀ hq0, mul_comm]; exact c5
  rw [div_lt_iff₀ a1]
  have e1 : ((N : ℝ) - 1) * δ = δ * N - δ := by ring
  rw [e1]
  linarith

/-- At a point of the fine grid the interpolation is exact. -/
theorem sinePDF_node (qmin qstep δ : ℝ) (f : List ℝ) (j : ℤ) (hδ : 0 < δ) :
    (1 - (j * δ / δ - ⌊j * δ / δ⌋)) * sinePDF qmin qstep f (⌊j * δ / δ⌋ * δ) +
      (j * δ / δ - ⌊j * δ / δ⌋) * sinePDF qmin qstep f ((⌊j * δ / δ⌋ + 1) * δ) = sinePDF qmin qstep f (j * δ) := by
  rw [mul_div_assoc, div_self hδ.ne', mul_one, Int.floor_intCast]
  ring

/-- The hypotheses of `debye_pdf` hold for the default settings: range 0 to 10 in steps of 0.01, Qmax 25, extension
limit 10, any structure. -/
example (tails : ℝ → ℝ → ℝ) (ht : ∀ a b, 0 ≤ tails a b) :
    let d : D := { dnew with rmax := 10, q := ⟨0, 25, 0.05, 1e-6⟩, optimum := true }
    d.Good ∧ ∃ d', dstep tails d .reset = .ok d' ∧
      d'.rstep ≤ min d'.maxext (d'.ripples + tails d'.rmin d'.rmax) := by
  simp only
  have hpi := Real.pi_gt_three
  have hpi4 := Real.pi_lt_four
  have hg : ({ dnew with rmax := 10, q := ⟨0, 25, 0.05, 1e-6⟩, optimum := true } : D).Good := by
    unfold dnew
    refine ⟨rfl, ?_, ?_, ?_, ?_, ?_, ?_, ?_, ?_, ?_⟩ <;> norm_num
  refine ⟨hg, ?_⟩
  have hx : ∀ d1 : D, d1.rstep = 0.01 → d1.maxext = 10 → d1.q.qmax = 25 →
      d1.rstep ≤ min d1.maxext (d1.ripples + tails d1.rmin d1.rmax) := by
    intro d1 h1 h2 h3
    rw [h1, h2]
    apply le_min (by norm_num)
    have := ht d1.rmin d1.rmax
    have hr : (1 : ℝ) ≤ d1.ripples := by
      unfold D.ripples
      rw [h3, if_pos (by norm_num), le_div_iff₀ (by norm_num)]
      linarith
    have : (0.01 : ℝ) ≤ 1 := by norm_num
    linarith
  generalize hd : ({ dnew with rmax := 10, q := ⟨0, 25, 0.05, 1e-6⟩, optimum := true } : D) = d at *
  have e1 : d.rstep = 0.01 := by rw [← hd]; rfl
  have e2 : d.maxext = 10 := by rw [← hd]; rfl
  have e3 : d.q.qmax = 25 := by rw [← hd]
  have e4 : d.rmax = 10 := by rw [← hd]
  have e5 : d.chi = 0 := by rw [← hd]; rfl
  cases hs : dstep tails d .reset with
  | ok d' =>
    obtain ⟨p1, p2, p3, p4, p5, p6, -⟩ := reset_parts tails d d' hs
    exact ⟨d', rfl, hx d' (by rw [p3, e1]) (by rw [p4, e2]) (by rw [p6]; exact e3)⟩
  | error d' =>
    exfalso
    have hl := d_late_throw tails d d' .reset trivial hs
    simp only [dstep] at hs
    obtain ⟨-, u1, u2, u3, u4, u5, u6⟩ := updateQstep_error tails _ _ hs
    -- the upper limit is between 10 and 20.01
    have hchi : d'.chi = rmaxSteps (10 + d.ext tails) 0.01 := by
      rw [updateQstep_eq] at hs
      simp only at hs
      have e : ensureCached tails (cacheRlimits tails d) = cacheRlimits tails d := rfl
      rw [e] at hs
      have hc : (cacheRlimits tails d).chi = rmaxSteps (10 + d.ext tails) 0.01 := by
        unfold cacheRlimits
        simp only
        rw [e1, e4, e5, if_pos]
        right
        unfold rmaxSteps
        rw [gt_iff_lt, Int.ceil_pos]
        have := ext_nonneg tails ht d (by rw [e2]; norm_num)
        positivity
      split at hs
      · split at hs
        · cases hs
        · cases hs; exact hc
      · cases hs
    have hext0 := ext_nonneg tails ht d (by rw [e2]; norm_num)
    have hext1 : d.ext tails ≤ 10 := by unfold D.ext; rw [e2]; exact min_le_left _ _
    have hR : d'.rcalchi < 21 := by
      unfold D.rcalchi
      rw [u4, hchi]
      change _ * d.rstep < 21
      rw [e1]
      have := (lt_rmaxSteps (10 + d.ext tails) 0.01 (by norm_num) (rmaxSteps (10 + d.ext tails) 0.01 - 1)).1 (by omega)
      push_cast at this
      have e : ((rmaxSteps (10 + d.ext tails) 0.01 : ℝ) - 1) * 0.01 = rmaxSteps (10 + d.ext tails) 0.01 * 0.01 - 0.01 := by ring
      rw [e] at this
      linarith
    have hR0 : 0 < d'.rcalchi := by
      unfold D.rcalchi
      rw [u4, hchi]
      change 0 < _ * d.rstep
      rw [e1]
      have : 0 < rmaxSteps (10 + d.ext tails) 0.01 := by
        unfold rmaxSteps
        rw [Int.ceil_pos]; positivity
      have : (0 : ℝ) < rmaxSteps (10 + d.ext tails) 0.01 := by exact_mod_cast this
      positivity
    have hq : d'.q.qmax = 25 := by rw [u1]; exact e3
    unfold D.oqstep at hl
    rw [hq] at hl
    have : (1 : ℝ) / 2 ^ 26 < 1 / 10 := by norm_num
    split at hl
    · have h1 : Real.pi / 21 ≤ Real.pi / d'.rcalchi := by
        apply div_le_div_of_nonneg_left (by linarith) hR0 hR.le
      have : (1 : ℝ) / 10 ≤ Real.pi / 21 := by rw [div_le_div_iff₀ (by norm_num) (by norm_num)]; linarith
      linarith
    · norm_num at hl

/-- The edge case: no extension and an upper limit of 64 steps, a power of two. -/
noncomputable def edgeD : D :=
  { q := ⟨0, 25, Real.pi / 0.64, 1e-6⟩, qminpdf := 0, rmin := 0, rmax := 0.64, rstep := 0.01, maxext := 0,
    optimum := true, clo := 0, chi := 64, cached := true, clicks := 0 }

/-- A defect: with no extension and a number of steps that is a power of two (here rmax 0.64, rstep 0.01,
`setMaxExtension(0)`) the interpolation at the last grid point reads the element one past the end of the array (with
weight zero); the build with assertions aborts.  The state is one that evaluations leave unchanged. -/
theorem interp_edge_bug (tails : ℝ → ℝ → ℝ) (ht : ∀ a b, 0 ≤ tails a b) (f : List ℝ) (hf : f.length ≤ 64) :
    edgeD.Good ∧ dstep tails edgeD .reset = .ok edgeD ∧
    getPDFAtQmin 0 edgeD.q.qstep edgeD.rmin edgeD.rmax edgeD.rstep f = none := by
  have hpi := Real.pi_gt_three
  have hpi4 := Real.pi_lt_four
  have hg : edgeD.Good := by
    unfold edgeD
    refine ⟨rfl, ?_, ?_, ?_, ?_, ?_, ?_, ?_, ?_, ?_⟩ <;> try norm_num
    rw [lt_div_iff₀ (by norm_num)]; norm_num; linarith
  have r1 : rminSteps (0 : ℝ) 0.01 = 0 := by
    apply le_antisymm
    · rw [rminSteps_le _ _ (by unfold eps; norm_num)]; unfold eps; norm_num
    · exact rminSteps_nonneg (by unfold eps; norm_num) (le_refl _)
  have r2 : rmaxSteps (0.64 : ℝ) 0.01 = 64 := by
    unfold rmaxSteps
    have : (0.64 : ℝ) / 0.01 = ((64 : ℤ) : ℝ) := by norm_num
    rw [this, Int.ceil_intCast]
  refine ⟨hg, ?_, ?_⟩
  · have hc : cacheRlimits tails edgeD = edgeD := by
      have h1 : (cacheRlimits tails edgeD).clo = 0 := by
        unfold cacheRlimits
        simp only
        rw [ext_zero tails ht edgeD rfl, sub_zero]
        change max 0 (rminSteps 0 0.01) = 0
        rw [r1]; rfl
      have h2 : (cacheRlimits tails edgeD).chi = 64 := by
        unfold cacheRlimits
        simp only
        rw [ext_zero tails ht edgeD rfl, add_zero]
        change (if rmaxSteps 0.64 0.01 ≤ 64 - 50 ∨ rmaxSteps 0.64 0.01 > 64 then rmaxSteps 0.64 0.01 else 64) = 64
        rw [r2]; norm_num
      have h4 : cacheRlimits tails edgeD =
          { edgeD with clo := (cacheRlimits tails edgeD).clo, chi := (cacheRlimits tails edgeD).chi, cached := true } := rfl
      rw [h4, h1, h2]; rfl
    have ho : edgeD.oqstep = edgeD.q.qstep := by
      unfold D.oqstep D.rcalchi
      change (if (25 : ℝ) * (((64 : ℤ) : ℝ) * 0.01) / Real.pi > 4 then Real.pi / (((64 : ℤ) : ℝ) * 0.01) else 25 / 4) =
        Real.pi / 0.64
      rw [if_pos]
      · norm_num
      · rw [gt_iff_lt, lt_div_iff₀ Real.pi_pos]; push_cast; norm_num; linarith
    simp only [dstep]
    rw [hc, updateQstep_eq]
    simp only
    have e : ensureCached tails edgeD = edgeD := rfl
    rw [e, if_pos (Or.inl ho.le), if_pos (by rw [ho]; exact hg.qstep), ho]
    have e0 : decide (edgeD.q.qstep ≠ edgeD.q.qstep) = false := by simp
    rw [e0]
    rfl
  · have hq : 1 / 2 ^ 26 < edgeD.q.qstep := hg.qstep
    obtain ⟨N, hN, -, hNf, hdr, hdr0, hdrN, -⟩ := gpad_spec 0 edgeD.q.qstep edgeD.rstep f hq (le_refl _)
      (by unfold edgeD; norm_num)
    -- the padded array has 64 elements
    have hlen : (padF 0 edgeD.q.qstep edgeD.rstep f).length = 64 := by
      have := (padF_spec 0 edgeD.q.qstep edgeD.rstep f hq (le_refl _)).1
      have hc : ⌈Real.pi / edgeD.rstep / edgeD.q.qstep⌉ = 64 := by
        have : Real.pi / edgeD.rstep / edgeD.q.qstep = ((64 : ℤ) : ℝ) := by
          change Real.pi / 0.01 / (Real.pi / 0.64) = _
          have := Real.pi_pos
          field_simp
          norm_num
        rw [this, Int.ceil_intCast]
      rw [hc] at this
      omega
    have hN64 : N = 64 := by
      have := length_fftgtof (padF 0 edgeD.q.qstep edgeD.rstep f) edgeD.q.qstep 0 (by
        intro h; rw [h] at hlen; simp at hlen)
      unfold fftftog at hN
      rw [List.length_map, this, hlen] at hN
      rw [← hN]
      have hp : padmin edgeD.q.qstep 0 = 0 := by unfold padmin; simp
      rw [hp, zero_add, pad2_eq]
      have : Nat.clog 2 64 = 6 := by decide
      rw [this]; norm_num
    unfold getPDFAtQmin
    simp only
    rw [hN, hN64]
    have hδ : drpad 64 edgeD.q.qstep = 0.01 := by
      unfold drpad
      change Real.pi / (((64 : ℕ) : ℝ) * (Real.pi / 0.64)) = 0.01
      have := Real.pi_pos
      field_simp
      norm_num
    rw [hδ]
    have hmem : (63 : ℝ) * 0.01 ∈ rgrid edgeD.rmin edgeD.rmax edgeD.rstep := by
      change _ ∈ rgrid 0 0.64 0.01
      unfold rgrid
      rw [r1, r2, List.mem_map]
      refine ⟨63, ?_, by norm_num⟩
      rw [mem_intRange]; norm_num
    have hnone : interp (fftftog (padF 0 edgeD.q.qstep edgeD.rstep f) edgeD.q.qstep 0) 0.01 (63 * 0.01) = none := by
      unfold interp
      simp only
      have e : (63 : ℝ) * 0.01 / 0.01 = ((63 : ℤ) : ℝ) := by norm_num
      rw [e, Int.floor_intCast, if_pos (by norm_num)]
      have : (fftftog (padF 0 edgeD.q.qstep edgeD.rstep f) edgeD.q.qstep 0)[(63 + 1 : ℤ).toNat]? = none := by
        apply List.getElem?_eq_none
        rw [hN, hN64]; decide
      rw [this]
      cases (fftftog (padF 0 edgeD.q.qstep edgeD.rstep f) edgeD.q.qstep 0)[(63 : ℤ).toNat]? <;> rfl
    have gen : ∀ (l : List ℝ) (F : ℝ → Option ℝ) (x : ℝ), x ∈ l → F x = none → l.mapM F = none := by
      intro l F x hx hF
      induction l with
      | nil => cases hx
      | cons y ys ih =>
        rw [List.mapM_cons]
        rcases List.mem_cons.1 hx with rfl | hx
        · rw [hF]; rfl
        · rw [ih hx]
          cases F y <;> rfl
    exact gen _ _ _ hmem hnone

end Verif.Debye
