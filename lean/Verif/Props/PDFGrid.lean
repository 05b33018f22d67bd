import Verif.Lemmas.PDFGrid
import Mathlib.Data.Rat.Floor
import Mathlib.Tactic.NormNum
/-! C27, C28, C29, C47: r-grid, calculation range, partial values and output arrays of the PDF
calculators. -/
namespace Verif.PDFGrid
set_option linter.unusedSectionVars false
variable {K : Type} [Field K] [LinearOrder K] [IsStrictOrderedRing K] [FloorRing K]

/-! ### C27 -/

/-- C27. `x` belongs to the grid: a multiple of `dr` from `rmin` (within the tolerance 2^-26) to
below `rmax`. -/
def GridPoint (rmin rmax dr x : K) : Prop :=
  ∃ n : ℤ, x = n * dr ∧ rmin - 1 / 2 ^ 26 ≤ x ∧ x < rmax

/-- C27. `getRgrid` returns exactly the grid points, in increasing order and each once, for every
`rmin`, `rmax` and every step that `setRstep` accepts. -/
theorem rgrid_exact (rmin rmax dr : K) (hd : 1 / 2 ^ 26 < dr) :
    (∀ x, x ∈ rgrid rmin rmax dr ↔ GridPoint rmin rmax dr x) ∧
    (rgrid rmin rmax dr).Pairwise (· < ·) := by
  have hd' : eps < dr := hd
  have hd0 : 0 < dr := lt_trans eps_pos hd'
  constructor
  · intro x
    unfold rgrid GridPoint
    simp only [List.mem_map, mem_intRange]
    constructor
    · rintro ⟨n, ⟨h1, h2⟩, rfl⟩
      exact ⟨n, rfl, (rminSteps_le _ _ hd' _).1 h1, (lt_rmaxSteps _ _ hd0 _).1 h2⟩
    · rintro ⟨n, rfl, h1, h2⟩
      exact ⟨n, ⟨(rminSteps_le _ _ hd' _).2 h1, (lt_rmaxSteps _ _ hd0 _).2 h2⟩, rfl⟩
  · unfold rgrid
    rw [List.pairwise_map]
    refine (sorted_intRange _ _).imp ?_
    intro a b h
    exact mul_lt_mul_of_pos_right (by exact_mod_cast h) hd0

/-- C27. The spacing of the grid is `dr` throughout. -/
theorem rgrid_spacing (rmin rmax dr : K) (i : Nat) (h : i + 1 < (rgrid rmin rmax dr).length) :
    (rgrid rmin rmax dr)[i + 1] = (rgrid rmin rmax dr)[i] + dr := by
  have f : ∀ (j : Nat) (hj : j < (rgrid rmin rmax dr).length),
      (rgrid rmin rmax dr)[j] = ((rminSteps rmin dr + j : ℤ) : K) * dr := by
    intro j hj
    have hj' : j < (intRange (rminSteps rmin dr) (rmaxSteps rmax dr)).length := by
      unfold rgrid at hj; rwa [List.length_map] at hj
    rw [← Option.some_inj, ← List.getElem?_eq_getElem]
    unfold rgrid
    rw [List.getElem?_map, List.getElem?_eq_getElem hj', getElem_intRange]
    rfl
  rw [f, f]
  push_cast
  ring

/-- C50. `getQgrid` returns exactly the multiples of the step from zero up to, but without, `qmax`, in increasing order. -/
theorem qgrid_exact (qmax dq : K) (hd : 0 < dq) :
    (∀ x, x ∈ qgrid qmax dq ↔ ∃ n : ℕ, x = n * dq ∧ x < qmax) ∧ (qgrid qmax dq).Pairwise (· < ·) := by
  have hs : qmaxSteps qmax dq = ⌈qmax / dq⌉ := by unfold qmaxSteps; rw [if_neg (not_le.2 hd)]
  constructor
  · intro x
    unfold qgrid
    simp only [List.mem_map, mem_intRange, hs]
    constructor
    · rintro ⟨n, ⟨h1, h2⟩, rfl⟩
      obtain ⟨m, rfl⟩ := Int.eq_ofNat_of_zero_le h1
      refine ⟨m, by simp, ?_⟩
      rw [Int.lt_ceil, lt_div_iff₀ hd] at h2
      exact h2
    · rintro ⟨n, rfl, h⟩
      refine ⟨n, ⟨by omega, ?_⟩, by simp⟩
      rw [Int.lt_ceil, lt_div_iff₀ hd]
      simpa using h
  · unfold qgrid
    rw [List.pairwise_map]
    refine (sorted_intRange _ _).imp ?_
    intro a b h
    exact mul_lt_mul_of_pos_right (by exact_mod_cast h) hd

/-- Without a step there are no points. -/
theorem qgrid_none (qmax dq : K) (hd : dq ≤ 0) : qgrid qmax dq = [] := by
  unfold qgrid qmaxSteps
  rw [if_pos hd]; rfl

example : qgrid (7 / 2 : ℚ) (1 / 2) = [0, 1 / 2, 1, 3 / 2, 2, 5 / 2, 3] := by decide +kernel

/-- The step test matters: with a step below the tolerance the grid would miss points. -/
example : ¬ ((1 : ℚ) / 2 ^ 26 < 1 / 2 ^ 28) ∧
    GridPoint (1 / 2 ^ 28 : ℚ) 1 (1 / 2 ^ 28) (- 2 / 2 ^ 28) ∧
    rminSteps (1 / 2 ^ 28 : ℚ) (1 / 2 ^ 28) = 0 := by
  refine ⟨by norm_num, ⟨-2, by norm_num, by norm_num, by norm_num⟩, by decide +kernel⟩

example : rgrid (1 : ℚ) 2 (1 / 4) = [1, 5 / 4, 3 / 2, 7 / 4] := by decide +kernel
example : rgrid (1 + 1 / 2 ^ 27 : ℚ) (3 / 2 + 1 / 2 ^ 40) (1 / 4) = [1, 5 / 4, 3 / 2] := by
  decide +kernel

/-- Arguments that the setters admit (`setRmin`, `setRstep`, `setMaxExtension`,
PDFCalculator.cpp:312-347), with a non-empty grid. -/
structure Ok (p : Par K) (ripples tails : K) : Prop where
  rmin : 0 ≤ p.rmin
  step : 1 / 2 ^ 26 < p.dr
  ext : 0 ≤ p.maxext
  rip : 0 ≤ ripples
  tls : 0 ≤ tails

theorem rescaled_spec {maxext ripples tails : K} (h : 0 ≤ maxext) (h1 : 0 ≤ ripples)
    (h2 : 0 ≤ tails) :
    0 ≤ (rescaled maxext ripples tails).1 ∧
    (rescaled maxext ripples tails).1 ≤ (rescaled maxext ripples tails).2 ∧
    (rescaled maxext ripples tails).2 = min maxext (ripples + tails) ∧
    (rescaled maxext ripples tails).1 * (ripples + tails) =
      (rescaled maxext ripples tails).2 * ripples := by
  unfold rescaled
  simp only
  split
  · rename_i hgt
    have hpos : 0 < ripples + tails := lt_of_le_of_lt h hgt
    have hq : 0 ≤ maxext / (ripples + tails) := div_nonneg h hpos.le
    refine ⟨mul_nonneg h1 hq, ?_, (min_eq_left hgt.le).symm, ?_⟩
    · rw [mul_div_assoc', div_le_iff₀ hpos]; nlinarith
    · field_simp
  · rename_i hgt
    exact ⟨h1, by linarith, (min_eq_right (not_lt.1 hgt)).symm, by ring⟩

/-- C27. The calculation range: it starts at or above zero and contains the extended range, which
contains the grid; the calculation range reaches beyond `[rmin, rmax]` by the total extension
`min(maxextension, ripples + tails)` and no further than that (up to the tolerance below and less
than one step above); below it may stop up to one step short; the extended range reaches by the
ripples' share of the total extension. -/
theorem calc_range (p : Par K) (ripples tails : K) (ok : Ok p ripples tails)
    (hne : (rgrid p.rmin p.rmax p.dr) ≠ []) :
    let l := rlimits p ripples tails
    let total := min p.maxext (ripples + tails)
    ∃ share, share * (ripples + tails) = total * ripples ∧ 0 ≤ share ∧ share ≤ total ∧
      (∀ x, x ∈ rgrid p.rmin p.rmax p.dr → (l.emin : K) * p.dr ≤ x ∧ x < (l.emax : K) * p.dr) ∧
      0 ≤ l.clo ∧ l.clo ≤ l.emin ∧ l.emin < l.emax ∧ l.emax ≤ l.chi ∧
      (p.rmin - total - 1 / 2 ^ 26 ≤ (l.clo : K) * p.dr) ∧
      (l.clo = 0 ∨ (l.clo : K) * p.dr < p.rmin - total + p.dr) ∧
      (p.rmax + total ≤ (l.chi : K) * p.dr) ∧ ((l.chi : K) * p.dr < p.rmax + total + p.dr) ∧
      (p.rmin - share - 1 / 2 ^ 26 ≤ (l.emin : K) * p.dr) ∧
      (l.emin = 0 ∨ (l.emin : K) * p.dr < p.rmin - share + p.dr) ∧
      (p.rmax + share ≤ (l.emax : K) * p.dr) ∧ ((l.emax : K) * p.dr < p.rmax + share + p.dr) := by
  have hd : eps < p.dr := ok.step
  have hd0 : 0 < p.dr := lt_trans eps_pos hd
  have hlt : rminSteps p.rmin p.dr < rmaxSteps p.rmax p.dr := by
    by_contra hge
    exact hne (by unfold rgrid; rw [intRange_empty (not_lt.1 hge)]; rfl)
  obtain ⟨s0, s1, s2, s3⟩ := rescaled_spec ok.ext ok.rip ok.tls
  simp only
  have el : rlimits p ripples tails =
      (⟨max 0 (rminSteps (p.rmin - (rescaled p.maxext ripples tails).1) p.dr),
        rmaxSteps (p.rmax + (rescaled p.maxext ripples tails).1) p.dr,
        max 0 (rminSteps (p.rmin - (rescaled p.maxext ripples tails).2) p.dr),
        rmaxSteps (p.rmax + (rescaled p.maxext ripples tails).2) p.dr⟩ : Limits) := by
    unfold rlimits; rw [if_neg (not_le.2 hlt)]
  rw [el]
  rw [← s2]
  generalize (rescaled p.maxext ripples tails).1 = a at *
  generalize (rescaled p.maxext ripples tails).2 = t at *
  refine ⟨a, s3, s0, s1, ?_⟩
  simp only
  have up : ∀ x : K, x ≤ (rmaxSteps x p.dr : K) * p.dr ∧ (rmaxSteps x p.dr : K) * p.dr < x + p.dr := by
    intro x
    constructor
    · have := (lt_rmaxSteps x p.dr hd0 (rmaxSteps x p.dr)).not.1 (lt_irrefl _)
      exact not_lt.1 this
    · have := (lt_rmaxSteps x p.dr hd0 (rmaxSteps x p.dr - 1)).1 (by omega)
      push_cast at this; linarith
  have lo : ∀ x : K, 0 ≤ p.rmin → (p.rmin - x - 1 / 2 ^ 26 ≤ ((max 0 (rminSteps (p.rmin - x) p.dr) : ℤ) : K) * p.dr) ∧
      ((max 0 (rminSteps (p.rmin - x) p.dr)) = 0 ∨
        ((max 0 (rminSteps (p.rmin - x) p.dr) : ℤ) : K) * p.dr < p.rmin - x + p.dr) := by
    intro x h0
    constructor
    · exact (rminSteps_le _ _ hd _).1 (le_max_right 0 _)
    · rcases le_total (rminSteps (p.rmin - x) p.dr) 0 with h | h
      · left; exact max_eq_left h
      · right
        rw [max_eq_right h]
        have := (rminSteps_le (p.rmin - x) p.dr hd (rminSteps (p.rmin - x) p.dr - 1)).not.1 (by omega)
        push_cast at this
        have := eps_pos (K := K)
        linarith
  have m1 : rminSteps (p.rmin - a) p.dr ≤ rminSteps p.rmin p.dr := rminSteps_mono hd (by linarith)
  have m2 : rminSteps (p.rmin - t) p.dr ≤ rminSteps (p.rmin - a) p.dr := rminSteps_mono hd (by linarith)
  have m3 : rmaxSteps p.rmax p.dr ≤ rmaxSteps (p.rmax + a) p.dr := rmaxSteps_mono hd0 (by linarith)
  have m4 : rmaxSteps (p.rmax + a) p.dr ≤ rmaxSteps (p.rmax + t) p.dr := rmaxSteps_mono hd0 (by linarith)
  have m5 : 0 ≤ rminSteps p.rmin p.dr := rminSteps_nonneg hd ok.rmin
  refine ⟨?_, le_max_left _ _, by omega, by omega, m4, (lo t ok.rmin).1, (lo t ok.rmin).2,
    (up _).1, (up _).2, (lo a ok.rmin).1, (lo a ok.rmin).2, (up _).1, (up _).2⟩
  intro x hx
  unfold rgrid at hx
  simp only [List.mem_map, mem_intRange] at hx
  obtain ⟨n, ⟨h1, h2⟩, rfl⟩ := hx
  constructor
  · exact mul_le_mul_of_nonneg_right (by exact_mod_cast (by omega : max 0 (rminSteps (p.rmin - a) p.dr) ≤ n)) hd0.le
  · exact mul_lt_mul_of_pos_right (by exact_mod_cast (by omega : n < rmaxSteps (p.rmax + a) p.dr)) hd0

/-- A non-trivial case: rmin 1, rmax 2, step 1/4, extension 3/2 of 1 + 1/2 wanted. -/
example : Ok (⟨1, 2, 1 / 4, 1⟩ : Par ℚ) 1 (1 / 2) ∧ rgrid (1 : ℚ) 2 (1 / 4) ≠ [] ∧
    rlimits (⟨1, 2, 1 / 4, 1⟩ : Par ℚ) 1 (1 / 2) = ⟨2, 11, 0, 12⟩ := by
  refine ⟨⟨by norm_num, by norm_num, by norm_num, by norm_num, by norm_num⟩, by decide +kernel,
    by decide +kernel⟩

/-! ### C28 -/

/-- C28. `restorePartialValue` keeps the size of the new array; at every absolute step `n` of the
new range it holds the stashed value of the same step if there is one, and what `resetValue` left
(zero) otherwise. -/
theorem restore_spec {α : Type} (st : List α) (stclo clo : ℤ) (v : List α) :
    (restore st stclo clo v).length = v.length ∧
    ∀ n : ℤ, clo ≤ n → n < clo + v.length →
      (restore st stclo clo v)[(n - clo).toNat]? =
        if stclo ≤ n ∧ n < stclo + st.length then st[(n - stclo).toNat]? else v[(n - clo).toNat]? := by
  unfold restore
  simp only
  split
  · rename_i h
    refine ⟨length_copyLoop _ _, ?_⟩
    intro n h1 h2
    rw [getElem?_copyLoop _ _ _ (by omega), List.length_drop, List.getElem?_drop]
    by_cases hc : stclo ≤ n ∧ n < stclo + st.length
    · rw [if_pos hc, if_pos (by omega)]
      congr 1; omega
    · rw [if_neg hc, if_neg (by omega)]
  · rename_i h
    have hk : (min (-(clo - stclo)) (v.length : ℤ)).toNat ≤ v.length := by omega
    refine ⟨?_, ?_⟩
    · rw [List.length_append, length_copyLoop, List.length_take, List.length_drop]; omega
    · intro n h1 h2
      rw [List.getElem?_append, List.length_take, min_eq_left hk]
      by_cases hlt : (n - clo).toNat < (min (-(clo - stclo)) (v.length : ℤ)).toNat
      · rw [if_pos hlt, List.getElem?_take, if_pos hlt, if_neg (by omega)]
      · rw [if_neg hlt, getElem?_copyLoop _ _ _ (by rw [List.length_drop]; omega), List.getElem?_drop]
        by_cases hc : stclo ≤ n ∧ n < stclo + st.length
        · rw [if_pos hc, if_pos (by omega)]; congr 1; omega
        · rw [if_neg hc, if_neg (by omega)]; congr 1; omega

/-- C28. In a fresh (zero) array: stashed values at their r positions, zero elsewhere. -/
theorem restore_zero (st : List K) (stclo clo : ℤ) (m : Nat) (n : ℤ) (h1 : clo ≤ n)
    (h2 : n < clo + m) :
    at_ clo (restore st stclo clo (List.replicate m 0)) n = at_ stclo st n := by
  have h := (restore_spec st stclo clo (List.replicate m 0)).2 n h1 (by simpa using h2)
  unfold at_
  rw [if_pos h1, List.getD_eq_getElem?_getD, h]
  by_cases hc : stclo ≤ n
  · rw [if_pos hc, List.getD_eq_getElem?_getD]
    by_cases h3 : n < stclo + st.length
    · rw [if_pos ⟨hc, h3⟩]
    · rw [if_neg (by tauto), List.getElem?_replicate, if_pos (by omega),
        List.getElem?_eq_none (by omega)]; rfl
  · rw [if_neg (by tauto), if_neg hc, List.getElem?_replicate, if_pos (by omega)]; rfl

example : restore [1, 2, 3] 5 4 [0, 0, 0, 0, 0] = [0, 1, 2, 3, 0] := by decide
example : restore [1, 2, 3] 5 6 [0, 0, 0] = [2, 3, 0] := by decide
example : restore [1, 2, 3] 5 9 [0, 0] = [0, 0] := by decide
example : restore [1, 2, 3] 5 1 [0, 0] = [0, 0] := by decide

/-! ### C29 -/

/-- The calculator's cached limits and value are those of its current parameters, as after every
evaluation (`setStructure` calls `resetValue`). -/
def Fresh (c : Calc K) (ripples tails : K) : Prop :=
  c.lim = rlimits c.par ripples tails ∧ (c.value.length : ℤ) = c.lim.count

/-- Order of the limits. -/
theorem limits_order (p : Par K) (ripples tails : K) (ok : Ok p ripples tails) :
    let l := rlimits p ripples tails
    l.clo ≤ l.emin ∧ l.emin ≤ l.emax ∧ l.emax ≤ l.chi ∧
      ((rgrid p.rmin p.rmax p.dr = [] ∧ l = ⟨0, 0, 0, 0⟩) ∨
        (l.emin ≤ rminSteps p.rmin p.dr ∧ rminSteps p.rmin p.dr < rmaxSteps p.rmax p.dr ∧
          rmaxSteps p.rmax p.dr ≤ l.emax)) := by
  have hd : eps < p.dr := ok.step
  have hd0 : 0 < p.dr := lt_trans eps_pos hd
  simp only
  unfold rlimits
  split
  · rename_i h
    exact ⟨le_refl _, le_refl _, le_refl _, Or.inl ⟨by unfold rgrid; rw [intRange_empty h]; rfl, rfl⟩⟩
  · rename_i h
    obtain ⟨s0, s1, -, -⟩ := rescaled_spec ok.ext ok.rip ok.tls
    simp only
    generalize (rescaled p.maxext ripples tails).1 = a at *
    generalize (rescaled p.maxext ripples tails).2 = t at *
    have m1 : rminSteps (p.rmin - a) p.dr ≤ rminSteps p.rmin p.dr := rminSteps_mono hd (by linarith)
    have m2 : rminSteps (p.rmin - t) p.dr ≤ rminSteps (p.rmin - a) p.dr := rminSteps_mono hd (by linarith)
    have m3 : rmaxSteps p.rmax p.dr ≤ rmaxSteps (p.rmax + a) p.dr := rmaxSteps_mono hd0 (by linarith)
    have m4 : rmaxSteps (p.rmax + a) p.dr ≤ rmaxSteps (p.rmax + t) p.dr := rmaxSteps_mono hd0 (by linarith)
    have m5 : 0 ≤ rminSteps p.rmin p.dr := rminSteps_nonneg hd ok.rmin
    refine ⟨by omega, by omega, m4, Or.inr ⟨by omega, by omega, m3⟩⟩

/-- Cutting the ripples from an extended array leaves the values on the grid. -/
theorem cut_spec {α : Type} (p : Par K) (ripples tails : K) (ok : Ok p ripples tails) (y : List α)
    (hy : (y.length : ℤ) = (rlimits p ripples tails).emax - (rlimits p ripples tails).emin) :
    ∃ z, cutRipplePoints p (rlimits p ripples tails) y = some z ∧
      z.length = (rgrid p.rmin p.rmax p.dr).length ∧
      ∀ i, i < z.length → z[i]? =
        y[(rminSteps p.rmin p.dr - (rlimits p ripples tails).emin).toNat + i]? := by
  have hg : (rgrid p.rmin p.rmax p.dr).length = (rmaxSteps p.rmax p.dr - rminSteps p.rmin p.dr).toNat := by
    unfold rgrid; rw [List.length_map, length_intRange]
  obtain ⟨o1, o2, o3, o4⟩ := limits_order p ripples tails ok
  rcases o4 with ⟨h0, h1⟩ | ⟨h1, h2, h3⟩
  · rw [h1] at hy ⊢
    have : y = [] := List.eq_nil_of_length_eq_zero (by simpa using hy)
    subst this
    exact ⟨[], rfl, by rw [h0]; rfl, by intro i hi; simp at hi⟩
  · generalize rlimits p ripples tails = l at *
    unfold cutRipplePoints
    have hne : ¬ y.isEmpty := by
      intro he
      have : y.length = 0 := by simpa using he
      omega
    rw [if_neg hne]
    unfold eraseEnd
    rw [if_pos (by omega), Option.bind_some]
    unfold eraseBegin
    rw [if_pos (by rw [List.length_take]; omega)]
    refine ⟨_, rfl, ?_, ?_⟩
    · rw [List.length_drop, List.length_take, hg]; omega
    · intro i hi
      rw [List.length_drop, List.length_take] at hi
      rw [List.getElem?_drop, List.getElem?_take, if_pos (by omega)]

/-- `getExtendedRDF` stays inside the array. -/
theorem ext_spec (c : Calc K) (ripples tails scale : K) (ok : Ok c.par ripples tails)
    (hf : Fresh c ripples tails) :
    ∃ y, c.extendedRDF scale = some y ∧ (y.length : ℤ) = c.lim.emax - c.lim.emin ∧
      ∀ n : ℤ, c.lim.emin ≤ n → n < c.lim.emax →
        y[(n - c.lim.emin).toNat]? = some (at_ c.lim.clo c.value n * scale) := by
  obtain ⟨hl, hv⟩ := hf
  obtain ⟨o1, o2, o3, -⟩ := limits_order c.par ripples tails ok
  rw [← hl] at o1 o2 o3
  have hc : c.lim.count = c.lim.chi - c.lim.clo := rfl
  unfold Calc.extendedRDF slice
  rw [if_pos (by omega)]
  refine ⟨_, rfl, ?_, ?_⟩
  · rw [List.length_map, List.length_drop, List.length_take]; omega
  · intro n h1 h2
    rw [List.getElem?_map, List.getElem?_drop, List.getElem?_take, if_pos (by omega)]
    unfold at_
    rw [if_pos (by omega), List.getD_eq_getElem?_getD]
    have e : (c.lim.emin - c.lim.clo).toNat + (n - c.lim.emin).toNat = (n - c.lim.clo).toNat := by omega
    rw [e, List.getElem?_eq_getElem (by omega : (n - c.lim.clo).toNat < c.value.length)]
    rfl

/-- C29. After an evaluation `getRDF` is defined (no index leaves its array), has exactly one
value per grid point, and the value at grid point `r = n·rstep` is the accumulated value of that
step times the scale. -/
theorem getRDF_spec (c : Calc K) (ripples tails scale : K) (ok : Ok c.par ripples tails)
    (hf : Fresh c ripples tails) :
    ∃ z, c.getRDF scale = some z ∧ z.length = (rgrid c.par.rmin c.par.rmax c.par.dr).length ∧
      ∀ (i : Nat) (n : ℤ), (rgrid c.par.rmin c.par.rmax c.par.dr)[i]? = some ((n : K) * c.par.dr) →
        z[i]? = some (at_ c.lim.clo c.value n * scale) := by
  have hd0 : 0 < c.par.dr := lt_trans eps_pos ok.step
  obtain ⟨y, hy, hyl, hyv⟩ := ext_spec c ripples tails scale ok hf
  have hyl' : (y.length : ℤ) = (rlimits c.par ripples tails).emax - (rlimits c.par ripples tails).emin := by
    rw [hyl, hf.1]
  obtain ⟨z, hz, hzl, hzv⟩ := cut_spec c.par ripples tails ok y hyl'
  refine ⟨z, ?_, hzl, ?_⟩
  · unfold Calc.getRDF
    rw [hy, Option.bind_some, hf.1, hz]
  · intro i n hi
    have hil : i < z.length := by
      rw [hzl]; exact (List.getElem?_eq_some_iff.1 hi).1
    rw [hzv i hil, ← hf.1]
    have hin : n = rminSteps c.par.rmin c.par.dr + i := by
      have h3 := (List.getElem?_eq_some_iff.1 hi).2
      unfold rgrid at h3
      rw [List.getElem_map, getElem_intRange] at h3
      have := mul_right_cancel₀ hd0.ne' h3
      exact_mod_cast this.symm
    obtain ⟨-, -, -, o4⟩ := limits_order c.par ripples tails ok
    have hgl : (rgrid c.par.rmin c.par.rmax c.par.dr).length =
        (rmaxSteps c.par.rmax c.par.dr - rminSteps c.par.rmin c.par.dr).toNat := by
      unfold rgrid; rw [List.length_map, length_intRange]
    rcases o4 with ⟨h0, -⟩ | ⟨h1, h2, h3⟩
    · rw [h0] at hi; simp at hi
    · rw [← hf.1] at h1 h3
      rw [← hyv n (by omega) (by omega)]
      congr 1; omega

/-- The other two output arrays are computed point by point from the RDF. -/
theorem zipWith_cut {α β γ : Type} (p : Par K) (l : Limits) (f : α → β → γ) (a : List α) (b : List β)
    (h : a.length = b.length) :
    cutRipplePoints p l (List.zipWith f a b) =
      (cutRipplePoints p l a).bind fun a' => (cutRipplePoints p l b).map fun b' => List.zipWith f a' b' := by
  unfold cutRipplePoints
  have hz : (List.zipWith f a b).length = a.length := by simp [h]
  by_cases ha : a.length = 0
  · have ha' : a = [] := List.eq_nil_of_length_eq_zero ha
    have hb' : b = [] := List.eq_nil_of_length_eq_zero (by omega)
    subst ha' hb'; rfl
  · have e1 : ¬ (List.zipWith f a b).isEmpty := by
      intro he; rw [List.isEmpty_iff] at he; rw [he] at hz; simp at hz; omega
    have e2 : ¬ a.isEmpty := by intro he; rw [List.isEmpty_iff] at he; subst he; exact ha rfl
    have e3 : ¬ b.isEmpty := by intro he; rw [List.isEmpty_iff] at he; subst he; exact ha h
    rw [if_neg e1, if_neg e2, if_neg e3]
    unfold eraseEnd
    rw [hz, ← h]
    split
    · simp only [Option.bind_some]
      unfold eraseBegin
      simp only [List.length_take, hz, ← h]
      split
      · simp [List.take_zipWith, List.drop_zipWith]
      · simp
    · simp

theorem extGrid_cut (c : Calc K) (ripples tails : K) (ok : Ok c.par ripples tails)
    (hf : Fresh c ripples tails) :
    cutRipplePoints c.par c.lim c.extendedRgrid = some (rgrid c.par.rmin c.par.rmax c.par.dr) := by
  have hl : (c.extendedRgrid.length : ℤ) =
      (rlimits c.par ripples tails).emax - (rlimits c.par ripples tails).emin := by
    obtain ⟨o1, o2, o3, -⟩ := limits_order c.par ripples tails ok
    unfold Calc.extendedRgrid
    rw [List.length_map, length_intRange, hf.1]; omega
  obtain ⟨z, hz, hzl, hzv⟩ := cut_spec c.par ripples tails ok _ hl
  rw [hf.1, hz]
  congr 1
  apply List.ext_getElem? 
  intro i
  by_cases hi : i < z.length
  · rw [hzv i hi]
    unfold Calc.extendedRgrid rgrid
    rw [List.getElem?_map, List.getElem?_map]
    congr 1
    have hgl : (rgrid c.par.rmin c.par.rmax c.par.dr).length =
        (rmaxSteps c.par.rmax c.par.dr - rminSteps c.par.rmin c.par.dr).toNat := by
      unfold rgrid; rw [List.length_map, length_intRange]
    obtain ⟨-, -, -, o4⟩ := limits_order c.par ripples tails ok
    rcases o4 with ⟨h0, -⟩ | ⟨h1, h2, h3⟩
    · rw [hzl, h0] at hi; simp at hi
    · rw [hf.1]
      rw [List.getElem?_eq_getElem (by rw [length_intRange]; omega),
        List.getElem?_eq_getElem (by rw [length_intRange]; omega), getElem_intRange, getElem_intRange]
      congr 1; omega
  · rw [List.getElem?_eq_none (by omega), List.getElem?_eq_none (by omega)]

/-- C29. After an evaluation `getRDFperR` has one value per grid point: the RDF divided by r, and
zero where r is not above 2^-26. -/
theorem getRDFperR_spec (c : Calc K) (ripples tails scale : K) (ok : Ok c.par ripples tails)
    (hf : Fresh c ripples tails) :
    ∃ rdf z, c.getRDF scale = some rdf ∧ c.getRDFperR scale = some z ∧
      z = List.zipWith (fun r y => if r > 1 / 2 ^ 26 then y / r else 0)
        (rgrid c.par.rmin c.par.rmax c.par.dr) rdf ∧
      z.length = (rgrid c.par.rmin c.par.rmax c.par.dr).length := by
  obtain ⟨y, hy, hyl, -⟩ := ext_spec c ripples tails scale ok hf
  obtain ⟨rdf, hr, hrl, -⟩ := getRDF_spec c ripples tails scale ok hf
  obtain ⟨o1, o2, o3, -⟩ := limits_order c.par ripples tails ok
  refine ⟨rdf, _, hr, ?_, rfl, by rw [List.length_zipWith, hrl, min_self]⟩
  unfold Calc.getRDFperR Calc.extendedRDFperR
  rw [hy, Option.map_some, Option.bind_some, zipWith_cut _ _ _ _ _ (by
    unfold Calc.extendedRgrid; rw [List.length_map, length_intRange]; omega),
    extGrid_cut c ripples tails ok hf, Option.bind_some]
  have : cutRipplePoints c.par c.lim y = some rdf := by
    unfold Calc.getRDF at hr; rw [hy, Option.bind_some] at hr; exact hr
  rw [this, Option.map_some]
  simp [eps]

/-- C29. After an evaluation `getPDF` (no Fourier transformation) has one value per grid point:
RDF per r plus the baseline, times the envelope, at that point. -/
theorem getPDF_spec (c : Calc K) (ripples tails scale : K) (baseline envelope : K → K)
    (ok : Ok c.par ripples tails) (hf : Fresh c ripples tails) :
    ∃ g z, c.getRDFperR scale = some g ∧ c.getPDF scale baseline envelope = some z ∧
      z = List.zipWith (fun r y => (y + baseline r) * envelope r)
        (rgrid c.par.rmin c.par.rmax c.par.dr) g ∧
      z.length = (rgrid c.par.rmin c.par.rmax c.par.dr).length := by
  obtain ⟨y, hy, hyl, -⟩ := ext_spec c ripples tails scale ok hf
  obtain ⟨rdf, g, hr, hg, -, hgl⟩ := getRDFperR_spec c ripples tails scale ok hf
  obtain ⟨o1, o2, o3, -⟩ := limits_order c.par ripples tails ok
  have hxl : (c.extendedRgrid.length : ℤ) = c.lim.emax - c.lim.emin := by
    unfold Calc.extendedRgrid; rw [List.length_map, length_intRange]
    rw [← hf.1] at o1 o2 o3; omega
  refine ⟨g, _, hg, ?_, rfl, by rw [List.length_zipWith, hgl, min_self]⟩
  unfold Calc.getRDFperR at hg
  unfold Calc.getPDF Calc.extendedPDF
  have he : c.extendedRDFperR scale = some (List.zipWith (fun r y => if r > 0 + eps then y / r else 0)
      c.extendedRgrid y) := by
    unfold Calc.extendedRDFperR; rw [hy, Option.map_some]
  rw [he, Option.bind_some] at hg
  rw [he, Option.map_some, Option.bind_some, zipWith_cut _ _ _ _ _ (by
    rw [List.length_zipWith]; omega),
    extGrid_cut c ripples tails ok hf, Option.bind_some, hg, Option.map_some]

/-- Every evaluation, complete or fast, leaves the calculator fresh. -/
theorem evaluated_fresh (p : Par K) (ripples tails : K) (pf : Prof K) (ps : List (Peak K))
    (ok : Ok p ripples tails) : Fresh (evaluated p ripples tails pf ps) ripples tails := by
  obtain ⟨o1, o2, o3, -⟩ := limits_order p ripples tails ok
  refine ⟨rfl, ?_⟩
  unfold evaluated evalPeaks
  simp only
  rw [length_foldl_addPeak, List.length_replicate]
  unfold Limits.count; omega

theorem fast_fresh (c : Calc K) (ripples tails : K) (pf : Prof K) (rs as : List (Peak K))
    (ok : Ok c.par ripples tails) : Fresh (fastUpdate c ripples tails pf rs as) ripples tails := by
  obtain ⟨o1, o2, o3, -⟩ := limits_order c.par ripples tails ok
  refine ⟨rfl, ?_⟩
  unfold fastUpdate
  simp only
  rw [length_foldl_addPeak, (restore_spec _ _ _ _).1, List.length_replicate]
  unfold Limits.count; omega

/-- The limits of the claim: `setRmax` after an evaluation leaves the cached limits behind, so
`getRDF` before the next evaluation erases past the end of the array (undefined behaviour). -/
theorem getRDF_after_setRmax_bug :
    let c := evaluated (⟨1, 2, 1 / 4, 10⟩ : Par ℚ) 0 (1 / 2) ⟨fun _ => -1, fun _ => 1, fun _ _ => 1⟩ []
    c.getRDF 1 = some [0, 0, 0, 0] ∧ (c.setPar ⟨1, 3, 1 / 4, 10⟩).getRDF 1 = none := by
  decide +kernel

/-! ### C47: nothing is lost by the restricted range -/

/-- C47. What the RDF should be at grid step `n`: the sum over all bonds of the structure. -/
def fullSum (pf : Prof K) (dr : K) (ps : List (Peak K)) (n : ℤ) : K :=
  (ps.map fun pk => peakAt pf dr pk n).sum

/-- The profile is zero at and beyond its bounds (cropped profiles), and the bounds of every bond
are within the tail extension. -/
structure Bounded (pf : Prof K) (tails : K) (ps : List (Peak K)) : Prop where
  lo : ∀ pk ∈ ps, -tails ≤ pf.lo pk.fwhm
  hi : ∀ pk ∈ ps, pf.hi pk.fwhm ≤ tails
  zero : ∀ pk ∈ ps, ∀ x, (x ≤ pf.lo pk.fwhm ∨ pf.hi pk.fwhm ≤ x) → pf.y x pk.fwhm = 0
  pos : ∀ pk ∈ ps, 0 ≤ pk.dist

/-- The bounds of every bond are within the tail extension (no condition on the profile beyond its
bounds). -/
structure Within (pf : Prof K) (tails : K) (ps : List (Peak K)) : Prop where
  lo : ∀ pk ∈ ps, -tails ≤ pf.lo pk.fwhm
  hi : ∀ pk ∈ ps, pf.hi pk.fwhm ≤ tails
  pos : ∀ pk ∈ ps, 0 ≤ pk.dist

/-- `r = n·dr` is strictly inside the bounds of the peak. -/
def inside (pf : Prof K) (dr : K) (pk : Peak K) (n : ℤ) : Prop :=
  pf.lo pk.fwhm < (n : K) * dr - pk.dist ∧ (n : K) * dr - pk.dist < pf.hi pk.fwhm

instance (pf : Prof K) (dr : K) (pk : Peak K) (n : ℤ) : Decidable (inside pf dr pk n) := by
  unfold inside; infer_instance

theorem inside_covers (pf : Prof K) (dr : K) (hd : 0 < dr) (pk : Peak K) (n : ℤ)
    (h : inside pf dr pk n) : covers pf dr pk n := by
  unfold covers
  constructor
  · have : (pk.dist + pf.lo pk.fwhm) / dr < (n : K) := by rw [div_lt_iff₀ hd]; linarith [h.1]
    have h2 := Int.floor_le ((pk.dist + pf.lo pk.fwhm) / dr)
    exact_mod_cast (lt_of_le_of_lt h2 this).le
  · rw [Int.le_floor, le_div_iff₀ hd]; linarith [h.2]

/-- The contributions of a bond reach a step of the extended range whenever the step is inside the
bounds of its peak. -/
theorem value_terms (p : Par K) (ripples tails : K) (pf : Prof K) (ps : List (Peak K))
    (ok : Ok p ripples tails) (hfit : ripples + tails ≤ p.maxext) (hb : Within pf tails ps) (n : ℤ)
    (h1 : (rlimits p ripples tails).emin ≤ n) (h2 : n < (rlimits p ripples tails).emax)
    (h3 : (rlimits p ripples tails).clo = 0 ∨ p.rmin - ripples + p.dr ≤ (n : K) * p.dr) :
    ∃ use : Peak K → Bool,
      at_ (rlimits p ripples tails).clo (evalPeaks pf p.dr (rlimits p ripples tails) ps) n =
        (ps.map fun pk => if use pk then peakAt pf p.dr pk n else 0).sum ∧
      ∀ pk ∈ ps, inside pf p.dr pk n → use pk = true := by
  have hd0 : 0 < p.dr := lt_trans eps_pos ok.step
  have hne : rgrid p.rmin p.rmax p.dr ≠ [] := by
    obtain ⟨-, -, -, o4⟩ := limits_order p ripples tails ok
    rcases o4 with ⟨-, h0⟩ | ⟨g1, g2, g3⟩
    · rw [h0] at h1 h2; simp at h1 h2; omega
    · intro he
      have : (rgrid p.rmin p.rmax p.dr).length = 0 := by rw [he]; rfl
      unfold rgrid at this; rw [List.length_map, length_intRange] at this; omega
  obtain ⟨share, c1, c2, c3, -, c5, c6, c7, c8, c9, c10, c11, c12, c13, c14, c15, c16⟩ :=
    calc_range p ripples tails ok hne
  rw [min_eq_right hfit] at c1 c3 c9 c10 c11 c12
  have hshare : share = ripples := by
    rcases eq_or_ne (ripples + tails) 0 with h0 | h0
    · have := ok.rip; have := ok.tls; linarith
    · have : share * (ripples + tails) = ripples * (ripples + tails) := by rw [c1]; ring
      exact mul_right_cancel₀ h0 this
  subst hshare
  generalize rlimits p share tails = l at *
  refine ⟨fun pk => inRange p.dr l pk && decide (l.clo ≤ n ∧ n < l.chi ∧ covers pf p.dr pk n), ?_, ?_⟩
  · unfold evalPeaks
    have hlen : ((List.replicate l.count.toNat (0 : K)).length : ℤ) = l.count := by
      rw [List.length_replicate]; unfold Limits.count; omega
    rw [at_foldl_addPeak _ _ _ _ _ hlen, at_replicate, zero_add]
    clear hb
    induction ps with
    | nil => rfl
    | cons q qs ih =>
      by_cases hq : inRange p.dr l q = true
      · rw [List.filter_cons_of_pos hq, List.map_cons, List.sum_cons, ih, List.map_cons,
          List.sum_cons]
        simp [hq]
      · rw [List.filter_cons_of_neg hq, ih, List.map_cons, List.sum_cons]
        simp [hq]
  · intro pk hpk hin
    have hcov := inside_covers pf p.dr hd0 pk n hin
    rw [Bool.and_eq_true, decide_eq_true_iff]
    refine ⟨?_, by omega, by omega, hcov⟩
    have hlo := hb.lo pk hpk
    have hhi := hb.hi pk hpk
    have hpos := hb.pos pk hpk
    unfold inRange
    rw [decide_eq_true_iff]
    constructor
    · rcases h3 with h3 | h3
      · rw [h3]; push_cast; linarith
      · rcases c10 with c10 | c10
        · rw [c10]; push_cast; linarith
        · linarith [hin.2]
    · have hn : (n : K) * p.dr < p.rmax + share := by
        have : ((l.emax - 1 : ℤ) : K) * p.dr < p.rmax + share := by push_cast; linarith
        refine lt_of_le_of_lt (mul_le_mul_of_nonneg_right ?_ hd0.le) this
        exact_mod_cast (by omega : n ≤ l.emax - 1)
      linarith [hin.1]

/-- C47. For any profile, the value accumulated at a step of the extended range differs from the
sum over *all* bonds of the structure, whatever their distance, by no more than the profile values
outside the peak bounds (which are below the peak precision, C36); at the lower end this needs
either a range starting at zero or a distance of one step from it. -/
theorem value_error (p : Par K) (ripples tails : K) (pf : Prof K) (ps : List (Peak K))
    (ok : Ok p ripples tails) (hfit : ripples + tails ≤ p.maxext) (hb : Within pf tails ps) (n : ℤ)
    (h1 : (rlimits p ripples tails).emin ≤ n) (h2 : n < (rlimits p ripples tails).emax)
    (h3 : (rlimits p ripples tails).clo = 0 ∨ p.rmin - ripples + p.dr ≤ (n : K) * p.dr) :
    |at_ (rlimits p ripples tails).clo (evalPeaks pf p.dr (rlimits p ripples tails) ps) n -
      fullSum pf p.dr ps n| ≤
      (ps.map fun pk => if inside pf p.dr pk n then 0 else |peakAt pf p.dr pk n|).sum := by
  obtain ⟨use, hv, hu⟩ := value_terms p ripples tails pf ps ok hfit hb n h1 h2 h3
  rw [hv]
  unfold fullSum
  clear hv hb
  induction ps with
  | nil => simp
  | cons q qs ih =>
    simp only [List.map_cons, List.sum_cons]
    have ih' := ih (fun pk hpk => hu pk (List.mem_cons_of_mem _ hpk))
    have e : ∀ a b c d : K, a + b - (c + d) = (a - c) + (b - d) := by intros; ring
    rw [e]
    refine (abs_add_le _ _).trans (add_le_add ?_ ih')
    by_cases hin : inside pf p.dr q n
    · rw [if_pos hin, if_pos (hu q List.mem_cons_self hin), sub_self, abs_zero]
    · rw [if_neg hin]
      split
      · rw [sub_self, abs_zero]; exact abs_nonneg _
      · rw [zero_sub, abs_neg]

/-- C47. If the profile vanishes beyond its bounds and the peak tails fit
(`ripples + tails ≤ maxextension`), the value accumulated at every step of the extended range is
exactly the sum over *all* bonds of the structure. -/
theorem value_complete (p : Par K) (ripples tails : K) (pf : Prof K) (ps : List (Peak K))
    (ok : Ok p ripples tails) (hfit : ripples + tails ≤ p.maxext) (hb : Bounded pf tails ps) (n : ℤ)
    (h1 : (rlimits p ripples tails).emin ≤ n) (h2 : n < (rlimits p ripples tails).emax)
    (h3 : (rlimits p ripples tails).clo = 0 ∨ p.rmin - ripples + p.dr ≤ (n : K) * p.dr) :
    at_ (rlimits p ripples tails).clo (evalPeaks pf p.dr (rlimits p ripples tails) ps) n =
      fullSum pf p.dr ps n := by
  have he := value_error p ripples tails pf ps ok hfit ⟨hb.lo, hb.hi, hb.pos⟩ n h1 h2 h3
  have hz : (ps.map fun pk => if inside pf p.dr pk n then 0 else |peakAt pf p.dr pk n|).sum = 0 := by
    apply List.sum_eq_zero
    intro x hx
    rw [List.mem_map] at hx
    obtain ⟨pk, hpk, rfl⟩ := hx
    split
    · rfl
    · rename_i hin
      have : pf.y ((n : K) * p.dr - pk.dist) pk.fwhm = 0 := by
        apply hb.zero pk hpk
        unfold inside at hin
        by_contra hc
        rw [not_or, not_le, not_le] at hc
        exact hin hc
      unfold peakAt
      simp only
      rw [this]; simp
  rw [hz] at he
  exact sub_eq_zero.1 (abs_nonpos_iff.1 he)

/-- C47. So `getRDF` after an evaluation is, at every grid point, the scaled sum over all bonds,
except possibly at the points less than one step above `rmin - ripples`. -/
theorem rdf_complete (p : Par K) (ripples tails scale : K) (pf : Prof K) (ps : List (Peak K))
    (ok : Ok p ripples tails) (hfit : ripples + tails ≤ p.maxext) (hb : Bounded pf tails ps) :
    ∃ z, (evaluated p ripples tails pf ps).getRDF scale = some z ∧
      z.length = (rgrid p.rmin p.rmax p.dr).length ∧
      ∀ (i : Nat) (n : ℤ), (rgrid p.rmin p.rmax p.dr)[i]? = some ((n : K) * p.dr) →
        ((rlimits p ripples tails).clo = 0 ∨ p.rmin - ripples + p.dr ≤ (n : K) * p.dr) →
        z[i]? = some (fullSum pf p.dr ps n * scale) := by
  obtain ⟨z, h1, h2, h3⟩ := getRDF_spec (evaluated p ripples tails pf ps) ripples tails scale ok
    (evaluated_fresh p ripples tails pf ps ok)
  refine ⟨z, h1, h2, ?_⟩
  intro i n hi hn
  have hd : eps < p.dr := ok.step
  have hd0 : 0 < p.dr := lt_trans eps_pos hd
  rw [h3 i n hi]
  have hmem : ((n : K) * p.dr) ∈ rgrid p.rmin p.rmax p.dr := List.mem_of_getElem? hi
  have hne : rgrid p.rmin p.rmax p.dr ≠ [] := List.ne_nil_of_mem hmem
  obtain ⟨m, hm, hm1, hm2⟩ := ((rgrid_exact p.rmin p.rmax p.dr ok.step).1 _).1 hmem
  have hmn : m = n := by
    have := mul_right_cancel₀ hd0.ne' hm
    exact_mod_cast this.symm
  subst hmn
  obtain ⟨-, -, -, o4⟩ := limits_order p ripples tails ok
  have g1 := (rminSteps_le p.rmin p.dr hd m).2 hm1
  have g2 := (lt_rmaxSteps p.rmax p.dr hd0 m).2 hm2
  rcases o4 with ⟨h0, -⟩ | ⟨k1, k2, k3⟩
  · exact absurd h0 hne
  · congr 2
    exact value_complete p ripples tails pf ps ok hfit hb m (by omega) (by omega) hn

theorem neg_peakAt (pf : Prof K) (dr : K) (pk : Peak K) (n : ℤ) :
    peakAt pf dr { pk with scale := -pk.scale } n = -peakAt pf dr pk n := by
  unfold peakAt; simp only; ring

theorem at_fast (p : Par K) (ripples t0 t1 : K) (pf : Prof K) (un rs as : List (Peak K))
    (ok0 : Ok p ripples t0) (ok1 : Ok p ripples t1) (fit0 : ripples + t0 ≤ p.maxext)
    (fit1 : ripples + t1 ≤ p.maxext) (hb0 : Bounded pf t0 (un ++ rs)) (hb1 : Bounded pf t1 (un ++ as))
    (n : ℤ) (h1 : (rlimits p ripples t1).emin ≤ n) (h2 : n < (rlimits p ripples t1).emax)
    (h0 : (rlimits p ripples t0).clo = 0 ∨ p.rmin - ripples + p.dr ≤ (n : K) * p.dr)
    (h3 : (rlimits p ripples t1).clo = 0 ∨ p.rmin - ripples + p.dr ≤ (n : K) * p.dr) :
    at_ (rlimits p ripples t1).clo
      (fastUpdate (evaluated p ripples t0 pf (un ++ rs)) ripples t1 pf rs as).value n =
      fullSum pf p.dr (un ++ as) n := by
  obtain ⟨a1, a2, a3, a4⟩ := limits_order p ripples t0 ok0
  obtain ⟨b1, b2, b3, b4⟩ := limits_order p ripples t1 ok1
  -- the extended limits agree
  have hem : (rlimits p ripples t0).emin = (rlimits p ripples t1).emin ∧
      (rlimits p ripples t0).emax = (rlimits p ripples t1).emax := by
    unfold rlimits rescaled
    simp only
    rw [if_neg (not_lt.2 fit0), if_neg (not_lt.2 fit1)]
    split <;> exact ⟨rfl, rfl⟩
  have hv := value_complete p ripples t0 pf (un ++ rs) ok0 fit0 hb0 n (by omega) (by omega) h0
  have hrs := value_complete p ripples t0 pf rs ok0 fit0
    ⟨fun k hk => hb0.lo k (List.mem_append_right _ hk), fun k hk => hb0.hi k (List.mem_append_right _ hk),
     fun k hk => hb0.zero k (List.mem_append_right _ hk), fun k hk => hb0.pos k (List.mem_append_right _ hk)⟩
    n (by omega) (by omega) h0
  have has := value_complete p ripples t1 pf as ok1 fit1
    ⟨fun k hk => hb1.lo k (List.mem_append_right _ hk), fun k hk => hb1.hi k (List.mem_append_right _ hk),
     fun k hk => hb1.zero k (List.mem_append_right _ hk), fun k hk => hb1.pos k (List.mem_append_right _ hk)⟩
    n (by omega) (by omega) h3
  have hc0 : (rlimits p ripples t0).count = (rlimits p ripples t0).chi - (rlimits p ripples t0).clo := rfl
  have hc1 : (rlimits p ripples t1).count = (rlimits p ripples t1).chi - (rlimits p ripples t1).clo := rfl
  unfold fastUpdate evaluated
  simp only
  rw [at_foldl_addPeak _ _ _ _ _ (by rw [(restore_spec _ _ _ _).1, List.length_replicate]; omega),
    restore_zero _ _ _ _ _ (by omega) (by omega),
    at_foldl_addPeak _ _ _ _ _ (by
      unfold evalPeaks; rw [length_foldl_addPeak, List.length_replicate]; omega), hv]
  unfold evalPeaks at hrs has
  rw [at_foldl_addPeak _ _ _ _ _ (by rw [List.length_replicate]; omega), at_replicate, zero_add] at hrs has
  rw [has]
  have : ((List.map (fun pk : Peak K => { pk with scale := -pk.scale })
      (List.filter (inRange p.dr (rlimits p ripples t0)) rs)).map fun pk =>
        if (rlimits p ripples t0).clo ≤ n ∧ n < (rlimits p ripples t0).chi ∧ covers pf p.dr pk n then
          peakAt pf p.dr pk n else 0).sum = -fullSum pf p.dr rs n := by
    rw [← hrs, List.map_map]
    generalize List.filter (inRange p.dr (rlimits p ripples t0)) rs = q
    induction q with
    | nil => simp
    | cons x q ih =>
      simp only [List.map_cons, List.sum_cons, neg_add]
      rw [ih]
      congr 1
      simp only [Function.comp_apply]
      have : covers pf p.dr { x with scale := -x.scale } n ↔ covers pf p.dr x n := Iff.rfl
      simp only [this, neg_peakAt]
      split <;> simp
  rw [this]
  unfold fullSum
  rw [List.map_append, List.sum_append, List.map_append, List.sum_append]
  ring

/-- C48. A fast update of the PDF calculator gives the same RDF as a complete evaluation, although
the width of the calculation range (through the largest displacement parameter, hence `t0`, `t1`)
may have changed: `un` are the bonds between unchanged atoms, `rs` the bonds of removed atoms, `as`
those of added atoms. -/
theorem fast_rdf_eq_basic (p : Par K) (ripples t0 t1 scale : K) (pf : Prof K)
    (un rs as : List (Peak K))
    (ok0 : Ok p ripples t0) (ok1 : Ok p ripples t1) (fit0 : ripples + t0 ≤ p.maxext)
    (fit1 : ripples + t1 ≤ p.maxext) (hb0 : Bounded pf t0 (un ++ rs)) (hb1 : Bounded pf t1 (un ++ as)) :
    ∃ z w, (fastUpdate (evaluated p ripples t0 pf (un ++ rs)) ripples t1 pf rs as).getRDF scale = some z ∧
      (evaluated p ripples t1 pf (un ++ as)).getRDF scale = some w ∧ z.length = w.length ∧
      ∀ (i : Nat) (n : ℤ), (rgrid p.rmin p.rmax p.dr)[i]? = some ((n : K) * p.dr) →
        ((rlimits p ripples t0).clo = 0 ∧ (rlimits p ripples t1).clo = 0 ∨
          p.rmin - ripples + p.dr ≤ (n : K) * p.dr) →
        z[i]? = w[i]? := by
  obtain ⟨w, w1, w2, w3⟩ := rdf_complete p ripples t1 scale pf (un ++ as) ok1 fit1 hb1
  obtain ⟨z, z1, z2, z3⟩ := getRDF_spec
    (fastUpdate (evaluated p ripples t0 pf (un ++ rs)) ripples t1 pf rs as) ripples t1 scale ok1
    (fast_fresh _ ripples t1 pf rs as ok1)
  refine ⟨z, w, z1, w1, z2.trans w2.symm, ?_⟩
  intro i n hi hn
  rw [w3 i n hi (by tauto), z3 i n hi]
  have hd : eps < p.dr := ok1.step
  have hd0 : 0 < p.dr := lt_trans eps_pos hd
  have hmem : ((n : K) * p.dr) ∈ rgrid p.rmin p.rmax p.dr := List.mem_of_getElem? hi
  obtain ⟨m, hm, hm1, hm2⟩ := ((rgrid_exact p.rmin p.rmax p.dr ok1.step).1 _).1 hmem
  have hmn : m = n := by
    have := mul_right_cancel₀ hd0.ne' hm
    exact_mod_cast this.symm
  subst hmn
  obtain ⟨-, -, -, o4⟩ := limits_order p ripples t1 ok1
  have g1 := (rminSteps_le p.rmin p.dr hd m).2 hm1
  have g2 := (lt_rmaxSteps p.rmax p.dr hd0 m).2 hm2
  rcases o4 with ⟨hz, -⟩ | ⟨k1, k2, k3⟩
  · exact absurd hz (List.ne_nil_of_mem hmem)
  · congr 2
    exact at_fast p ripples t0 t1 pf un rs as ok0 ok1 fit0 fit1 hb0 hb1 m (by omega) (by omega)
      (by tauto) (by tauto)

/-- A box profile for the examples: 1 within 3/8 of the peak centre. -/
def box : Prof ℚ := ⟨fun _ => -3 / 8, fun _ => 3 / 8, fun x _ => if |x| < 3 / 8 then 1 else 0⟩

theorem box_bounded (ps : List (Peak ℚ)) (h : ∀ pk ∈ ps, 0 ≤ pk.dist) (t : ℚ) (ht : 3 / 8 ≤ t) :
    Bounded box t ps := by
  refine ⟨?_, ?_, ?_, h⟩
  · intro pk _; simp only [box]; linarith
  · intro pk _; simpa [box] using ht
  · intro pk _ x hx
    simp only [box] at hx ⊢
    rw [if_neg]
    rw [abs_lt]
    rintro ⟨h1, h2⟩
    rcases hx with hx | hx <;> linarith

/-- The hypotheses of the completeness and fast update theorems are met by a non-trivial case:
three unchanged bonds, one replaced, a changed tail extension. -/
example :
    let p : Par ℚ := ⟨1, 2, 1 / 4, 10⟩
    let un : List (Peak ℚ) := [⟨3 / 4, 1, 2⟩, ⟨3 / 2, 1, 1⟩, ⟨5, 1, 1⟩]
    let rs : List (Peak ℚ) := [⟨2, 1, 3⟩]
    let as : List (Peak ℚ) := [⟨5 / 4, 1, 3⟩]
    Ok p (1 / 2) (1 / 2) ∧ Ok p (1 / 2) 1 ∧ Bounded box (1 / 2) (un ++ rs) ∧ Bounded box 1 (un ++ as) ∧
    (rlimits p (1 / 2) 1).clo = 0 ∧ (rlimits p (1 / 2) (1 / 2)).clo = 0 ∧
    rlimits p (1 / 2) 1 ≠ rlimits p (1 / 2) (1 / 2) ∧
    (fastUpdate (evaluated p (1 / 2) (1 / 2) box (un ++ rs)) (1 / 2) 1 box rs as).getRDF 1 =
      some [76 / 15, 23 / 6, 23 / 5, 7 / 6] := by
  refine ⟨⟨by norm_num, by norm_num, by norm_num, by norm_num, by norm_num⟩,
    ⟨by norm_num, by norm_num, by norm_num, by norm_num, by norm_num⟩,
    box_bounded _ (by decide +kernel) _ (by norm_num), box_bounded _ (by decide +kernel) _ (by norm_num),
    by decide +kernel, by decide +kernel, by decide +kernel, by decide +kernel⟩

/-- C47, limit of the claim: the lower end of the calculation range is rounded *up* to the grid,
so a bond just below it whose tail reaches the first grid point is dropped. -/
theorem first_point_bug :
    let p : Par ℚ := ⟨1, 2, 1 / 4, 10⟩
    let ps : List (Peak ℚ) := [⟨7 / 10, 1, 1⟩]
    Ok p 0 (3 / 8) ∧ Bounded box (3 / 8) ps ∧ fullSum box p.dr ps 4 = 10 / 7 ∧
    (evaluated p 0 (3 / 8) box ps).getRDF 1 = some [0, 0, 0, 0] := by
  refine ⟨⟨by norm_num, by norm_num, by norm_num, by norm_num, by norm_num⟩,
    box_bounded _ (by decide +kernel) _ (by norm_num), by decide +kernel, by decide +kernel⟩

/-- C48, limit of the claim: the raw `value()` does depend on the way of evaluation, a fast update
does not fill in old bonds in the part of the range that the update has added. -/
theorem fast_value_differs :
    let p : Par ℚ := ⟨1, 2, 1 / 4, 10⟩
    let un : List (Peak ℚ) := [⟨21 / 8, 1, 1⟩]
    (fastUpdate (evaluated p 0 (3 / 8) box un) 0 1 box [] []).value ≠
      (evaluated p 0 1 box un).value ∧
    (fastUpdate (evaluated p 0 (3 / 8) box un) 0 1 box [] []).getRDF 1 =
      (evaluated p 0 1 box un).getRDF 1 := by
  decide +kernel

end Verif.PDFGrid
