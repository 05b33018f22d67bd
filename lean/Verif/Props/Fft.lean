import Verif.Lemmas.Fft
import Verif.Props.PDFGrid
import Mathlib.Data.List.GetD
import Mathlib.Analysis.Real.Pi.Bounds
/-! C49, C50: Fourier transformation and Q-window of the PDF calculator (GSL by its
specification). -/
namespace Verif.Fft
open Verif.PDFGrid Classical Finset

/-! ### C49 -/

/-- C49 (specification). Discrete sine transform of samples `g` at `r_i = (p + i)·dr` at wave
number `q`, i.e. the rectangle rule for ∫ g(r) sin(q r) dr. -/
noncomputable def sineTransform (g : List ℝ) (dr : ℝ) (p : ℝ) (q : ℝ) : ℝ :=
  dr * ∑ i ∈ range g.length, g.getD i 0 * Real.sin (q * ((p + i) * dr))

theorem length_fftgtof (g : List ℝ) (rstep rmin : ℝ) (hg : g ≠ []) :
    (fftgtof g rstep rmin).length = pad2 (padmin rstep rmin + g.length) := by
  unfold fftgtof
  rw [if_neg (by simpa using hg)]
  simp

/-- f_k as a sine sum over the padded signal. -/
theorem getD_fftgtof (g : List ℝ) (rstep rmin : ℝ) (hg : g ≠ []) (k : Nat)
    (hk : k < pad2 (padmin rstep rmin + g.length)) :
    (fftgtof g rstep rmin).getD k 0 =
      rstep * ∑ j ∈ range (pad2 (padmin rstep rmin + g.length)), sig g (padmin rstep rmin) j *
        Real.sin (Real.pi * j * k / (pad2 (padmin rstep rmin + g.length) : ℕ)) := by
  have hN := pad2_pos (padmin rstep rmin + g.length)
  have hle := le_pad2 (padmin rstep rmin + g.length)
  unfold fftgtof
  rw [if_neg (by simpa using hg)]
  simp only
  generalize pad2 (padmin rstep rmin + g.length) = N at *
  generalize padmin rstep rmin = pad at *
  have hN' : (N : ℝ) ≠ 0 := by positivity
  have e1 : ((List.range N).map fun i : Nat => ((gslInverse (padded g pad N)).getD i 0).im * (N : ℝ) * rstep).getD k 0
      = ((gslInverse (padded g pad N)).getD k 0).im * (N : ℝ) * rstep := by
    rw [List.getD_eq_getElem?_getD, List.getElem?_map, List.getElem?_range hk]; rfl
  rw [e1]
  have e2 : (gslInverse (padded g pad N)).getD k 0 =
      (∑ j ∈ range (2 * N), (padded g pad N).getD j 0 *
        Complex.exp (2 * Real.pi * Complex.I * (j : ℂ) * (k : ℂ) / ((2 * N : ℕ) : ℂ))) / ((2 * N : ℕ) : ℂ) := by
    unfold gslInverse
    rw [length_padded, List.getD_eq_getElem?_getD, List.getElem?_map, List.getElem?_range (by omega)]
    rfl
  rw [e2]
  have e3 : ∑ j ∈ range (2 * N), (padded g pad N).getD j 0 *
        Complex.exp (2 * Real.pi * Complex.I * (j : ℂ) * (k : ℂ) / ((2 * N : ℕ) : ℂ)) =
      ∑ j ∈ range (2 * N), (((if j < N then sig g pad j else if j = N then 0 else -sig g pad (2 * N - j)) : ℝ) : ℂ) *
        Complex.exp (((Real.pi * j * k / N : ℝ) : ℂ) * Complex.I) := by
    apply Finset.sum_congr rfl
    intro j hj
    rw [getD_padded g pad N hN hle j (Finset.mem_range.1 hj)]
    congr 2
    push_cast
    have : (N : ℂ) ≠ 0 := by exact_mod_cast hN'
    field_simp
  rw [e3]
  have e4 : ∀ w : ℂ, (w / ((2 * N : ℕ) : ℂ)).im = w.im / (2 * N) := by
    intro w
    have : ((2 * N : ℕ) : ℂ) = ((2 * N : ℝ) : ℂ) := by push_cast; ring
    rw [this, Complex.div_ofReal_im]
  rw [e4, im_sum_exp, odd_extension (sig g pad) N k hN]
  generalize (∑ x ∈ range N, sig g pad x * Real.sin (Real.pi * x * k / N)) = T
  field_simp

theorem sig_sum (g : List ℝ) (pad N : Nat) (h : pad + g.length ≤ N) (F : Nat → ℝ) :
    ∑ j ∈ range N, sig g pad j * F j = ∑ i ∈ range g.length, g.getD i 0 * F (pad + i) := by
  obtain ⟨d, rfl⟩ : ∃ d, N = pad + g.length + d := ⟨N - (pad + g.length), by omega⟩
  rw [Finset.sum_range_add, Finset.sum_range_add]
  have z1 : ∑ x ∈ range pad, sig g pad x * F x = 0 := by
    apply Finset.sum_eq_zero
    intro j hj
    unfold sig
    rw [if_neg (by have := Finset.mem_range.1 hj; omega), zero_mul]
  have z2 : ∑ x ∈ range d, sig g pad (pad + g.length + x) * F (pad + g.length + x) = 0 := by
    apply Finset.sum_eq_zero
    intro j _
    unfold sig
    rw [if_neg (by omega), zero_mul]
  rw [z1, z2, zero_add, add_zero]
  apply Finset.sum_congr rfl
  intro i hi
  unfold sig
  rw [if_pos (by have := Finset.mem_range.1 hi; omega), Nat.add_sub_cancel_left]

/-- C49. `fftgtof` is the sine transform of the samples: for a non-empty `g` starting at
`rmin ≥ 0` it returns `N` values, `N` the least power of two covering the samples counted from
zero, and value `k` is the sine transform at `q_k = k·π/(N·rstep)`. -/
theorem fftgtof_spec (g : List ℝ) (rstep rmin : ℝ) (hg : g ≠ []) (hr : 0 < rstep) (h0 : 0 ≤ rmin) :
    let N := (fftgtof g rstep rmin).length
    (∃ e : Nat, N = 2 ^ e) ∧ round (rmin / rstep) + g.length ≤ N ∧
    (N : ℤ) < 2 * (round (rmin / rstep) + g.length) ∧
    ∀ k, k < N → (fftgtof g rstep rmin).getD k 0 =
      sineTransform g rstep (round (rmin / rstep) : ℤ) (k * (Real.pi / (N * rstep))) := by
  simp only
  rw [length_fftgtof g rstep rmin hg]
  have hpos : 0 ≤ round (rmin / rstep) := by
    rw [round_eq]; apply Int.floor_nonneg.2; positivity
  have hpad : ((padmin rstep rmin : ℕ) : ℤ) = round (rmin / rstep) := by unfold padmin; omega
  have hgl : 0 < g.length := List.length_pos_of_ne_nil hg
  have h1 := le_pad2 (padmin rstep rmin + g.length)
  have h2 := pad2_lt (padmin rstep rmin + g.length) (by omega)
  refine ⟨⟨_, pad2_eq _⟩, by rw [← hpad]; exact_mod_cast h1, by rw [← hpad]; exact_mod_cast h2, ?_⟩
  intro k hk
  have hN := pad2_pos (padmin rstep rmin + g.length)
  rw [getD_fftgtof g rstep rmin hg k hk, sig_sum _ _ _ h1]
  unfold sineTransform
  congr 1
  apply Finset.sum_congr rfl
  intro i _
  congr 2
  have : ((round (rmin / rstep) : ℤ) : ℝ) = (padmin rstep rmin : ℝ) := by rw [← hpad]; norm_cast
  rw [this]
  have hN' : ((pad2 (padmin rstep rmin + g.length) : ℕ) : ℝ) ≠ 0 := by positivity
  push_cast
  field_simp

theorem padmin_mul (p : Nat) (rstep : ℝ) (hr : 0 < rstep) : padmin rstep (p * rstep) = p := by
  unfold padmin
  rw [mul_div_assoc, div_self hr.ne', mul_one, round_natCast, Int.toNat_natCast]

theorem sig_getD (f : List ℝ) (j : Nat) : sig f 0 j = f.getD j 0 := by
  unfold sig
  by_cases h : j < f.length
  · rw [if_pos (by omega), Nat.sub_zero]
  · rw [if_neg (by omega), List.getD_eq_getElem?_getD, List.getElem?_eq_none (by omega)]; rfl

/-- `fftftog` from Q = 0 as a sine sum. -/
theorem getD_fftftog (f : List ℝ) (dq : ℝ) (hf : f ≠ []) (e : Nat) (he : f.length = 2 ^ e) (j : Nat)
    (hj : j < f.length) :
    (fftftog f dq 0).length = f.length ∧
    (fftftog f dq 0).getD j 0 =
      2 / Real.pi * dq * ∑ k ∈ range f.length, f.getD k 0 * Real.sin (Real.pi * j * k / f.length) := by
  have hp : padmin dq 0 = 0 := by unfold padmin; simp
  have hpad : pad2 (padmin dq 0 + f.length) = f.length := by
    rw [hp, zero_add, he, pad2_eq, Nat.clog_pow _ _ (by norm_num)]
  have hl : (fftgtof f dq 0).length = f.length := by rw [length_fftgtof f dq 0 hf, hpad]
  constructor
  · unfold fftftog; rw [List.length_map, hl]
  · unfold fftftog
    rw [List.getD_eq_getElem?_getD, List.getElem?_map]
    have h1 := getD_fftgtof f dq 0 hf j (by rw [hpad]; exact hj)
    rw [hpad, hp] at h1
    rw [List.getElem?_eq_getElem (by omega)]
    rw [List.getD_eq_getElem _ _ (by omega)] at h1
    simp only [Option.map_some, Option.getD_some]
    rw [h1]
    have : ∀ k ∈ range f.length, sig f 0 k * Real.sin (Real.pi * k * j / f.length) =
        f.getD k 0 * Real.sin (Real.pi * j * k / f.length) := by
      intro k _
      rw [sig_getD]; congr 2; ring
    rw [Finset.sum_congr rfl this]
    norm_num
    ring

/-- C49. `fftftog` undoes `fftgtof`: transforming samples from `rmin = p·rstep` to F(Q) and back
with the matching Q-step gives the samples back, surrounded by zeros on the r-grid from zero; only
a sample at r = 0 is lost (its sine transform vanishes). -/
theorem fft_roundtrip (g : List ℝ) (rstep : ℝ) (p : Nat) (hg : g ≠ []) (hr : 0 < rstep) :
    let f := fftgtof g rstep (p * rstep)
    let h := fftftog f (Real.pi / (f.length * rstep)) 0
    h.length = f.length ∧ p + g.length ≤ h.length ∧
    ∀ j, j < h.length → h.getD j 0 =
      if 0 < j ∧ p ≤ j ∧ j < p + g.length then g.getD (j - p) 0 else 0 := by
  simp only
  have hpm := padmin_mul p rstep hr
  have hlf : (fftgtof g rstep (p * rstep)).length = pad2 (p + g.length) := by
    rw [length_fftgtof g rstep _ hg, hpm]
  have hN := pad2_pos (p + g.length)
  have hle := le_pad2 (p + g.length)
  have hgl : 0 < g.length := List.length_pos_of_ne_nil hg
  have hne : fftgtof g rstep (p * rstep) ≠ [] := by
    intro he; rw [he] at hlf; simp at hlf; omega
  have hpow : (fftgtof g rstep (p * rstep)).length = 2 ^ Nat.clog 2 (p + g.length) := by rw [hlf, pad2_eq]
  have hfk : ∀ k, k < pad2 (p + g.length) → (fftgtof g rstep (p * rstep)).getD k 0 =
      rstep * ∑ l ∈ range (pad2 (p + g.length)), sig g p l *
        Real.sin (Real.pi * l * k / (pad2 (p + g.length) : ℕ)) := by
    intro k hk
    have := getD_fftgtof g rstep (p * rstep) hg k (by rw [hpm]; exact hk)
    rw [hpm] at this; exact this
  have hdq := fun j hj => getD_fftftog (fftgtof g rstep (p * rstep))
    (Real.pi / ((fftgtof g rstep (p * rstep)).length * rstep)) hne _ hpow j hj
  rw [hlf] at hdq ⊢
  have hlen := (hdq 0 hN).1
  refine ⟨hlen, by omega, ?_⟩
  rw [hlen]
  intro j hj
  rw [(hdq j hj).2]
  rw [Finset.sum_congr rfl (fun k hk => by rw [hfk k (Finset.mem_range.1 hk)])]
  generalize pad2 (p + g.length) = N at *
  have hN' : (N : ℝ) ≠ 0 := by positivity
  have key : ∑ k ∈ range N, (rstep * ∑ l ∈ range N, sig g p l * Real.sin (Real.pi * l * k / N)) *
      Real.sin (Real.pi * j * k / N) = rstep * (if 0 < j then sig g p j * (N / 2) else 0) := by
    have e1 : ∀ k ∈ range N, (rstep * ∑ l ∈ range N, sig g p l * Real.sin (Real.pi * l * k / N)) *
        Real.sin (Real.pi * j * k / N) =
        rstep * ∑ l ∈ range N, sig g p l * (Real.sin (Real.pi * l * k / N) * Real.sin (Real.pi * j * k / N)) := by
      intro k _
      rw [mul_assoc, Finset.sum_mul]
      congr 1
      apply Finset.sum_congr rfl; intro l _; ring
    rw [Finset.sum_congr rfl e1, ← Finset.mul_sum, Finset.sum_comm]
    congr 1
    have e2 : ∀ l ∈ range N, ∑ k ∈ range N, sig g p l *
        (Real.sin (Real.pi * l * k / N) * Real.sin (Real.pi * j * k / N)) =
        if l = j then (if 0 < j then sig g p j * (N / 2) else 0) else 0 := by
      intro l hl
      rw [← Finset.mul_sum, sine_orthogonal N hN l j (Finset.mem_range.1 hl) hj]
      by_cases h1 : l = j
      · subst h1
        by_cases h2 : 0 < l
        · simp [h2]
        · simp [h2]
      · simp [h1]
    rw [Finset.sum_congr rfl e2, Finset.sum_ite_eq' (range N) j, if_pos (Finset.mem_range.2 hj)]
  rw [key]
  have hs : sig g p j = if p ≤ j ∧ j < p + g.length then g.getD (j - p) 0 else 0 := rfl
  by_cases h0 : 0 < j
  · rw [if_pos h0]
    have : 2 / Real.pi * (Real.pi / (N * rstep)) * (rstep * (sig g p j * (N / 2))) = sig g p j := by
      have := Real.pi_ne_zero
      field_simp
    rw [this, hs]
    by_cases h1 : p ≤ j ∧ j < p + g.length
    · rw [if_pos h1, if_pos ⟨h0, h1⟩]
    · rw [if_neg h1, if_neg (by tauto)]
  · rw [if_neg h0, if_neg (by tauto)]; ring

/-- The hypotheses are met, with a non-trivial result: three samples from r = 2·rstep are padded
to eight points. -/
example : ([1, 2, 3] : List ℝ) ≠ [] ∧ (0 : ℝ) < 1 / 4 ∧
    (fftgtof [1, 2, 3] (1 / 4) ((2 : ℕ) * (1 / 4))).length = 8 := by
  refine ⟨by simp, by norm_num, ?_⟩
  rw [length_fftgtof _ _ _ (by simp), padmin_mul 2 (1 / 4) (by norm_num), pad2_eq]
  simp only [List.length_cons, List.length_nil]
  have : Nat.clog 2 5 = 3 := by decide
  norm_num [this]

/-! ### C50 -/

/-- Settings of the calculator for the Fourier branch: as admitted by the setters. -/
structure QOk (qmin mqmax : ℝ) : Prop where
  qmin : 0 ≤ qmin
  qmax : 0 < mqmax

theorem qsteps (N : Nat) (hN : 0 < N) (dr qmin mqmax : ℝ) (hd : eps < dr) (hq : QOk qmin mqmax)
    (hres : eps < Real.pi / (N * dr)) :
    0 ≤ qminSteps qmin (Real.pi / (N * dr)) ∧
    0 ≤ qmaxSteps (getQmax mqmax dr) (Real.pi / (N * dr)) ∧
    qmaxSteps (getQmax mqmax dr) (Real.pi / (N * dr)) ≤ N := by
  have hd0 : 0 < dr := lt_trans eps_pos hd
  have hN' : (0 : ℝ) < N := by positivity
  have hdq : 0 < Real.pi / (N * dr) := by have := Real.pi_pos; positivity
  refine ⟨?_, ?_, ?_⟩
  · unfold qminSteps
    rw [if_neg (not_le.2 hdq)]
    exact rminSteps_nonneg hres hq.qmin
  · unfold qmaxSteps
    rw [if_neg (not_le.2 hdq)]
    apply Int.ceil_nonneg
    refine div_nonneg ?_ hdq.le
    unfold getQmax
    exact le_min hq.qmax.le (by have := Real.pi_pos; positivity)
  · unfold qmaxSteps
    rw [if_neg (not_le.2 hdq), Int.ceil_le, div_le_iff₀ hdq]
    unfold getQmax
    refine (min_le_right _ _).trans (le_of_eq ?_)
    push_cast
    field_simp

theorem length_qwindow (lo hi : ℤ) (f w : List ℝ) (h : qwindow lo hi f = some w) :
    w.length = f.length ∧ ∀ k, k < f.length → w.getD k 0 =
      if lo ≤ k ∧ (k : ℤ) < hi then f.getD k 0 else 0 := by
  unfold qwindow at h
  split at h
  · rename_i hc
    simp only [Option.some.injEq] at h
    subst h
    have hl1 : (List.replicate (min lo (f.length : ℤ)).toNat (0 : ℝ) ++
        f.drop (min lo (f.length : ℤ)).toNat).length = f.length := by
      rw [List.length_append, List.length_replicate, List.length_drop]; omega
    constructor
    · rw [List.length_append, List.length_take, hl1, List.length_replicate]; omega
    · intro k hk
      rw [List.getD_eq_getElem?_getD, List.getElem?_append, List.length_take, hl1]
      by_cases h1 : (k : ℤ) < hi
      · rw [if_pos (by omega), List.getElem?_take, if_pos (by omega), List.getElem?_append,
          List.length_replicate]
        by_cases h2 : lo ≤ k
        · rw [if_neg (by omega), if_pos ⟨h2, h1⟩, List.getElem?_drop]
          have e : (min lo (f.length : ℤ)).toNat + (k - (min lo (f.length : ℤ)).toNat) = k := by omega
          rw [e]; rfl
        · rw [if_pos (by omega), if_neg (by tauto), List.getElem?_replicate, if_pos (by omega)]; rfl
      · rw [if_neg (by omega), if_neg (by tauto), List.getElem?_replicate, if_pos (by omega)]; rfl
  · cases h

theorem qwindow_some (lo hi : ℤ) (f : List ℝ) (h1 : 0 ≤ lo) (h2 : 0 ≤ hi) (h3 : hi ≤ f.length) :
    ∃ w, qwindow lo hi f = some w := by
  unfold qwindow; rw [if_pos ⟨h1, h2, h3⟩]; exact ⟨_, rfl⟩

/-- The extended RDF per r plus baseline: what both branches of `getExtendedPDF` start from. -/
noncomputable def direct (c : Calc ℝ) (baseline : ℝ → ℝ) (rdfperr : List ℝ) : List ℝ :=
  List.zipWith (fun r y => y + baseline r) c.extendedRgrid rdfperr

theorem rdfperr_some (c : Calc ℝ) (ripples tails scale : ℝ) (ok : Ok c.par ripples tails)
    (hf : Fresh c ripples tails) (baseline : ℝ → ℝ) :
    ∃ y, c.extendedRDFperR scale = some y ∧ (y.length : ℤ) = c.lim.emax - c.lim.emin ∧
      ((direct c baseline y).length : ℤ) = c.lim.emax - c.lim.emin := by
  obtain ⟨y, hy, hyl, -⟩ := ext_spec c ripples tails scale ok hf
  obtain ⟨o1, o2, o3, -⟩ := limits_order c.par ripples tails ok
  rw [← hf.1] at o1 o2 o3
  have hx : (c.extendedRgrid.length : ℤ) = c.lim.emax - c.lim.emin := by
    unfold Calc.extendedRgrid; rw [List.length_map, length_intRange]; omega
  refine ⟨_, by unfold Calc.extendedRDFperR; rw [hy, Option.map_some], ?_, ?_⟩
  · rw [List.length_zipWith]; omega
  · unfold direct; rw [List.length_zipWith, List.length_zipWith]; omega

/-- The number of points of F(Q) is the padded number of steps. -/
theorem extendedF_spec (c : Calc ℝ) (ripples tails : ℝ) (ok : Ok c.par ripples tails)
    (hf : Fresh c ripples tails) (hne : rgrid c.par.rmin c.par.rmax c.par.dr ≠ [])
    (baseline : ℝ → ℝ) (y : List ℝ)
    (hy : ((direct c baseline y).length : ℤ) = c.lim.emax - c.lim.emin) :
    0 ≤ c.lim.emin ∧ c.lim.emin < c.lim.emax ∧
    getQstep c.lim.emax c.par.dr = Real.pi / ((pad2 c.lim.emax.toNat : ℝ) * c.par.dr) ∧
    (extendedF c baseline y).length = pad2 c.lim.emax.toNat ∧
    extendedF c baseline y = fftgtof (direct c baseline y) c.par.dr ((c.lim.emin.toNat : ℝ) * c.par.dr) ∧
    direct c baseline y ≠ [] ∧ c.lim.emin.toNat + (direct c baseline y).length = c.lim.emax.toNat := by
  obtain ⟨-, -, -, -, -, c5, c6, c7, -⟩ := calc_range c.par ripples tails ok hne
  rw [← hf.1] at c5 c6 c7
  have hd0 : 0 < c.par.dr := lt_trans eps_pos ok.step
  have hcast : ((c.lim.emin.toNat : ℕ) : ℝ) = (c.lim.emin : ℝ) := by
    have : ((c.lim.emin.toNat : ℕ) : ℤ) = c.lim.emin := by omega
    exact_mod_cast this
  have hdn : direct c baseline y ≠ [] := by
    intro he; rw [he] at hy; simp at hy; omega
  have hdef : extendedF c baseline y = fftgtof (direct c baseline y) c.par.dr
      ((c.lim.emin.toNat : ℝ) * c.par.dr) := by rw [hcast]; rfl
  have hsum : c.lim.emin.toNat + (direct c baseline y).length = c.lim.emax.toNat := by omega
  refine ⟨by omega, c7, ?_, ?_, hdef, hdn, hsum⟩
  · unfold getQstep; rw [if_pos (by omega)]
  · rw [hdef, length_fftgtof _ _ _ hdn, padmin_mul _ _ hd0, hsum]

/-- C50 (specification). The PDF before envelopes at `r = n·dr`: inverse sine transform of F(Q) restricted to
the points `q_k` with `qmin ≤ q_k` (within the tolerance 2^-26) and `q_k < Qmax`, where F(Q) is the sine
transform of `g`, the RDF per r plus baseline from `r = emin·dr`. -/
noncomputable def windowed (c : Calc ℝ) (qmin mqmax : ℝ) (g : List ℝ) (n : ℤ) : ℝ :=
  2 / Real.pi * getQstep c.lim.emax c.par.dr *
    ∑ k ∈ range (pad2 c.lim.emax.toNat),
      if qmin - 1 / 2 ^ 26 ≤ k * getQstep c.lim.emax c.par.dr ∧
          k * getQstep c.lim.emax c.par.dr < getQmax mqmax c.par.dr then
        sineTransform g c.par.dr c.lim.emin (k * getQstep c.lim.emax c.par.dr) *
          Real.sin (k * getQstep c.lim.emax c.par.dr * (n * c.par.dr))
      else 0

/-- The Fourier computation, whichever branch is taken. -/
theorem fourier_core (c : Calc ℝ) (ripples tails qmin mqmax scale : ℝ) (baseline : ℝ → ℝ)
    (ok : Ok c.par ripples tails) (hf : Fresh c ripples tails) (hq : QOk qmin mqmax)
    (hne : rgrid c.par.rmin c.par.rmax c.par.dr ≠ [])
    (hres : 1 / 2 ^ 26 < getQstep c.lim.emax c.par.dr) :
    ∃ y w, c.extendedRDFperR scale = some y ∧ ((direct c baseline y).length : ℤ) = c.lim.emax - c.lim.emin ∧
      qwindow (qminSteps qmin (getQstep c.lim.emax c.par.dr))
        (qmaxSteps (getQmax mqmax c.par.dr) (getQstep c.lim.emax c.par.dr)) (extendedF c baseline y) = some w ∧
      (fftftog w (getQstep c.lim.emax c.par.dr) 0).length = pad2 c.lim.emax.toNat ∧
      ∀ n : ℤ, c.lim.emin ≤ n → n < c.lim.emax →
        (fftftog w (getQstep c.lim.emax c.par.dr) 0).getD n.toNat 0 =
          windowed c qmin mqmax (direct c baseline y) n := by
  have hd : eps < c.par.dr := ok.step
  have hd0 : 0 < c.par.dr := lt_trans eps_pos hd
  obtain ⟨y, hy, hyl, hdl⟩ := rdfperr_some c ripples tails scale ok hf baseline
  obtain ⟨f1, f2, f3, f4, f5, f6, f7⟩ := extendedF_spec c ripples tails ok hf hne baseline y hdl
  have hNle := le_pad2 c.lim.emax.toNat
  have hNpos := pad2_pos c.lim.emax.toNat
  have hN' : ((pad2 c.lim.emax.toNat : ℕ) : ℝ) ≠ 0 := by positivity
  have hdq : 0 < getQstep c.lim.emax c.par.dr := lt_trans (by positivity) hres
  obtain ⟨q1, q2, q3⟩ := qsteps (pad2 c.lim.emax.toNat) hNpos c.par.dr qmin mqmax hd hq (by rw [← f3]; exact hres)
  rw [← f3] at q1 q2 q3
  obtain ⟨w, hw⟩ := qwindow_some _ _ (extendedF c baseline y) q1 q2 (by rw [f4]; exact q3)
  obtain ⟨hwl, hwv⟩ := length_qwindow _ _ _ _ hw
  rw [f4] at hwl hwv
  have hwne : w ≠ [] := by intro he; rw [he] at hwl; simp at hwl; omega
  have hwpow : w.length = 2 ^ Nat.clog 2 c.lim.emax.toNat := by rw [hwl, pad2_eq]
  have hback := fun j hj => getD_fftftog w (getQstep c.lim.emax c.par.dr) hwne _ hwpow j hj
  have hgl := (hback 0 (by omega)).1
  refine ⟨y, w, hy, hdl, hw, by rw [hgl, hwl], ?_⟩
  intro n h1 h2
  rw [(hback n.toNat (by omega)).2, hwl]
  unfold windowed
  congr 1
  apply Finset.sum_congr rfl
  intro k hk
  have hk' := Finset.mem_range.1 hk
  rw [hwv k hk']
  have c1 : qminSteps qmin (getQstep c.lim.emax c.par.dr) ≤ (k : ℤ) ↔
      qmin - 1 / 2 ^ 26 ≤ k * getQstep c.lim.emax c.par.dr := by
    unfold qminSteps
    rw [if_neg (not_le.2 hdq)]
    have := rminSteps_le qmin (getQstep c.lim.emax c.par.dr) hres (k : ℤ)
    rw [Int.cast_natCast] at this
    exact this
  have c2 : (k : ℤ) < qmaxSteps (getQmax mqmax c.par.dr) (getQstep c.lim.emax c.par.dr) ↔
      k * getQstep c.lim.emax c.par.dr < getQmax mqmax c.par.dr := by
    unfold qmaxSteps
    rw [if_neg (not_le.2 hdq)]
    have := lt_rmaxSteps (getQmax mqmax c.par.dr) (getQstep c.lim.emax c.par.dr) hdq (k : ℤ)
    rw [Int.cast_natCast] at this
    exact this
  rw [if_congr (and_congr c1 c2) rfl rfl]
  by_cases hc : qmin - 1 / 2 ^ 26 ≤ k * getQstep c.lim.emax c.par.dr ∧
      k * getQstep c.lim.emax c.par.dr < getQmax mqmax c.par.dr
  swap
  · rw [if_neg hc, if_neg hc, zero_mul]
  · rw [if_pos hc, if_pos hc]
    have hcast : ((n.toNat : ℕ) : ℝ) = (n : ℝ) := by
      have : ((n.toNat : ℕ) : ℤ) = n := by omega
      exact_mod_cast this
    congr 1
    · rw [f5]
      have hs := (fftgtof_spec (direct c baseline y) c.par.dr ((c.lim.emin.toNat : ℝ) * c.par.dr) f6 hd0
        (by positivity)).2.2.2 k (by rw [← f5, f4]; exact hk')
      rw [hs, ← f5, f4, f3]
      congr 1
      rw [mul_div_assoc, div_self hd0.ne', mul_one, round_natCast]
      have : ((c.lim.emin.toNat : ℕ) : ℤ) = c.lim.emin := by omega
      exact_mod_cast this
    · congr 1
      rw [f3, hcast]
      field_simp

/-- C50. The Fourier branch of `getExtendedPDF`: no index leaves its array, there is one value per
point of the extended grid, and the value at `r = n·dr` is the windowed transform. -/
theorem fourier_branch (c : Calc ℝ) (ripples tails qmin mqmax scale : ℝ) (baseline : ℝ → ℝ)
    (ok : Ok c.par ripples tails) (hf : Fresh c ripples tails) (hq : QOk qmin mqmax)
    (hne : rgrid c.par.rmin c.par.rmax c.par.dr ≠ [])
    (hres : 1 / 2 ^ 26 < getQstep c.lim.emax c.par.dr)
    (hskip : skipfft c qmin mqmax = false) :
    ∃ y z, c.extendedRDFperR scale = some y ∧ extendedG c qmin mqmax scale baseline = some z ∧
      (z.length : ℤ) = c.lim.emax - c.lim.emin ∧
      ∀ n : ℤ, c.lim.emin ≤ n → n < c.lim.emax →
        z.getD (n - c.lim.emin).toNat 0 = windowed c qmin mqmax (direct c baseline y) n := by
  obtain ⟨y, w, hy, hdl, hw, hgl, hv⟩ := fourier_core c ripples tails qmin mqmax scale baseline ok hf hq hne hres
  obtain ⟨f1, f2, -⟩ := extendedF_spec c ripples tails ok hf hne baseline y hdl
  have hNle := le_pad2 c.lim.emax.toNat
  have hz : extendedG c qmin mqmax scale baseline =
      some (((fftftog w (getQstep c.lim.emax c.par.dr) 0).take c.lim.emax.toNat).drop c.lim.emin.toNat) := by
    unfold extendedG
    rw [hy, Option.bind_some, hskip]
    simp only [Bool.false_eq_true, if_false]
    rw [hw, Option.bind_some]
    unfold eraseEnd
    rw [if_pos (by omega), Option.bind_some]
    unfold eraseBegin
    rw [if_pos (by rw [List.length_take]; omega)]
    have : (fftftog w (getQstep c.lim.emax c.par.dr) 0).length -
        (((fftftog w (getQstep c.lim.emax c.par.dr) 0).length : ℤ) - c.lim.emax).toNat = c.lim.emax.toNat := by
      omega
    rw [this]
  refine ⟨y, _, hy, hz, by rw [List.length_drop, List.length_take]; omega, ?_⟩
  intro n h1 h2
  have e1 : (((fftftog w (getQstep c.lim.emax c.par.dr) 0).take c.lim.emax.toNat).drop c.lim.emin.toNat).getD
      (n - c.lim.emin).toNat 0 = (fftftog w (getQstep c.lim.emax c.par.dr) 0).getD n.toNat 0 := by
    rw [List.getD_eq_getElem?_getD, List.getElem?_drop, List.getElem?_take, if_pos (by omega),
      List.getD_eq_getElem?_getD]
    congr 2; omega
  rw [e1, hv n h1 h2]

/-- C50. `getPDF` has one value per grid point in either branch. -/
theorem getPDF_length (c : Calc ℝ) (ripples tails qmin mqmax scale : ℝ) (baseline envelope : ℝ → ℝ)
    (ok : Ok c.par ripples tails) (hf : Fresh c ripples tails) (hq : QOk qmin mqmax)
    (hne : rgrid c.par.rmin c.par.rmax c.par.dr ≠ [])
    (hres : 1 / 2 ^ 26 < getQstep c.lim.emax c.par.dr) :
    ∃ z, getPDF c qmin mqmax scale baseline envelope = some z ∧
      z.length = (rgrid c.par.rmin c.par.rmax c.par.dr).length := by
  obtain ⟨g, hg, hgl⟩ : ∃ g, extendedG c qmin mqmax scale baseline = some g ∧
      (g.length : ℤ) = c.lim.emax - c.lim.emin := by
    rcases hs : skipfft c qmin mqmax with _ | _
    · obtain ⟨y, z, -, hz, hzl, -⟩ := fourier_branch c ripples tails qmin mqmax scale baseline ok hf hq hne hres hs
      exact ⟨z, hz, hzl⟩
    · obtain ⟨y, hy, -, hdl⟩ := rdfperr_some c ripples tails scale ok hf baseline
      refine ⟨direct c baseline y, ?_, hdl⟩
      unfold extendedG
      rw [hy, Option.bind_some, hs, if_pos rfl]; rfl
  obtain ⟨o1, o2, o3, -⟩ := limits_order c.par ripples tails ok
  rw [← hf.1] at o1 o2 o3
  have hx : (c.extendedRgrid.length : ℤ) = c.lim.emax - c.lim.emin := by
    unfold Calc.extendedRgrid; rw [List.length_map, length_intRange]; omega
  obtain ⟨z, hz, hzl, -⟩ := cut_spec c.par ripples tails ok
    (List.zipWith (fun r y => y * envelope r) c.extendedRgrid g)
    (by rw [List.length_zipWith, ← hf.1]; omega)
  refine ⟨z, ?_, hzl⟩
  unfold getPDF
  rw [hg, Option.bind_some]
  rw [← hf.1] at hz
  exact hz

/-- C50. `getF` has one value per point of `getQgrid`. -/
theorem getF_length (c : Calc ℝ) (ripples tails qmin mqmax scale : ℝ) (baseline : ℝ → ℝ)
    (ok : Ok c.par ripples tails) (hf : Fresh c ripples tails) (hq : QOk qmin mqmax)
    (hne : rgrid c.par.rmin c.par.rmax c.par.dr ≠ [])
    (hres : 1 / 2 ^ 26 < getQstep c.lim.emax c.par.dr) :
    ∃ z, getF c mqmax scale baseline = some z ∧
      z.length = (qgrid (getQmax mqmax c.par.dr) (getQstep c.lim.emax c.par.dr)).length := by
  obtain ⟨y, hy, -, hdl⟩ := rdfperr_some c ripples tails scale ok hf baseline
  obtain ⟨f1, f2, f3, f4, -⟩ := extendedF_spec c ripples tails ok hf hne baseline y hdl
  obtain ⟨q1, q2, q3⟩ := qsteps (pad2 c.lim.emax.toNat) (pad2_pos _) c.par.dr qmin mqmax ok.step hq
    (by rw [← f3]; exact hres)
  rw [← f3] at q2 q3
  unfold getF
  rw [hy, Option.bind_some]
  unfold slice
  rw [if_pos ⟨le_refl _, q2, by rw [f4]; exact q3⟩]
  refine ⟨_, rfl, ?_⟩
  unfold qgrid
  rw [List.length_drop, List.length_take, f4, List.length_map, length_intRange]
  simp only [Int.toNat_zero, Nat.sub_zero, sub_zero]
  omega

/-- C50. When the Q-window is full (`qmin` excludes at most Q = 0 and `Qmax` is the Nyquist limit),
the Fourier transformations change nothing: for a baseline that vanishes at r = 0 the Fourier
computation equals the direct one at every point of the extended grid. -/
theorem full_window (c : Calc ℝ) (ripples tails qmin mqmax : ℝ) (baseline : ℝ → ℝ)
    (ok : Ok c.par ripples tails) (hf : Fresh c ripples tails)
    (hne : rgrid c.par.rmin c.par.rmax c.par.dr ≠ []) (y : List ℝ)
    (hdl : ((direct c baseline y).length : ℤ) = c.lim.emax - c.lim.emin) (w : List ℝ)
    (hw : qwindow (qminSteps qmin (getQstep c.lim.emax c.par.dr))
      (qmaxSteps (getQmax mqmax c.par.dr) (getQstep c.lim.emax c.par.dr))
      (extendedF c baseline y) = some w)
    (hlo : qminSteps qmin (getQstep c.lim.emax c.par.dr) ≤ 1) (hhi : Real.pi / c.par.dr ≤ mqmax)
    (n : ℤ) (h0 : 0 < n) (h1 : c.lim.emin ≤ n) (h2 : n < c.lim.emax) :
    (fftftog w (getQstep c.lim.emax c.par.dr) 0).getD n.toNat 0 =
      (direct c baseline y).getD (n - c.lim.emin).toNat 0 := by
  have hd0 : 0 < c.par.dr := lt_trans eps_pos ok.step
  obtain ⟨f1, f2, f3, f4, f5, f6, f7⟩ := extendedF_spec c ripples tails ok hf hne baseline y hdl
  have hNpos := pad2_pos c.lim.emax.toNat
  have hN' : (0 : ℝ) < (pad2 c.lim.emax.toNat : ℕ) := by exact_mod_cast hNpos
  have hdq : 0 < getQstep c.lim.emax c.par.dr := by rw [f3]; have := Real.pi_pos; positivity
  obtain ⟨hwl, hwv⟩ := length_qwindow _ _ _ _ hw
  rw [f4] at hwl hwv
  have hmax : qmaxSteps (getQmax mqmax c.par.dr) (getQstep c.lim.emax c.par.dr) = pad2 c.lim.emax.toNat := by
    unfold qmaxSteps getQmax
    rw [if_neg (not_le.2 hdq), min_eq_right hhi, f3]
    have : Real.pi / c.par.dr / (Real.pi / ((pad2 c.lim.emax.toNat : ℝ) * c.par.dr)) =
        ((pad2 c.lim.emax.toNat : ℤ) : ℝ) := by
      have := Real.pi_pos
      push_cast
      field_simp
    rw [this, Int.ceil_intCast]
  have hF0 : (extendedF c baseline y).getD 0 0 = 0 := by
    rw [f5, getD_fftgtof _ _ _ f6 0 (pad2_pos _)]
    simp
  have hweq : w = extendedF c baseline y := by
    apply List.ext_getElem (by rw [hwl, f4])
    intro k hk1 hk2
    have := hwv k (by omega)
    rw [List.getD_eq_getElem _ _ hk1] at this
    rw [this, hmax]
    by_cases hk : k = 0
    · subst hk
      rw [List.getD_eq_getElem _ _ hk2] at hF0
      rw [hF0]
      split
      · rw [List.getD_eq_getElem _ _ hk2, hF0]
      · rfl
    · rw [if_pos (by omega), List.getD_eq_getElem _ _ hk2]
  have hr := fft_roundtrip (direct c baseline y) c.par.dr c.lim.emin.toNat f6 hd0
  simp only at hr
  rw [← f5, f4, ← f3] at hr
  obtain ⟨r1, r2, r3⟩ := hr
  rw [hweq]
  have := r3 n.toNat (by have := le_pad2 c.lim.emax.toNat; omega)
  rw [this, if_pos (by omega)]
  congr 1; omega

/-- C50. Whether or not the calculator takes its shortcut: the PDF before envelopes is the windowed transform at
every point of the extended grid other than r = 0.  (`hcut` leaves out a `Qmax` within 2^-26 below the Nyquist
limit, which the code treats as the limit.) -/
theorem extendedG_spec (c : Calc ℝ) (ripples tails qmin mqmax scale : ℝ) (baseline : ℝ → ℝ)
    (ok : Ok c.par ripples tails) (hf : Fresh c ripples tails) (hq : QOk qmin mqmax)
    (hne : rgrid c.par.rmin c.par.rmax c.par.dr ≠ [])
    (hres : 1 / 2 ^ 26 < getQstep c.lim.emax c.par.dr)
    (hcut : mqmax < Real.pi / c.par.dr - eps ∨ Real.pi / c.par.dr ≤ mqmax) :
    ∃ y z, c.extendedRDFperR scale = some y ∧ extendedG c qmin mqmax scale baseline = some z ∧
      (z.length : ℤ) = c.lim.emax - c.lim.emin ∧
      ∀ n : ℤ, 0 < n → c.lim.emin ≤ n → n < c.lim.emax →
        z.getD (n - c.lim.emin).toNat 0 = windowed c qmin mqmax (direct c baseline y) n := by
  rcases hs : skipfft c qmin mqmax with _ | _
  · obtain ⟨y, z, h1, h2, h3, h4⟩ := fourier_branch c ripples tails qmin mqmax scale baseline ok hf hq hne hres hs
    exact ⟨y, z, h1, h2, h3, fun n _ => h4 n⟩
  · obtain ⟨y, w, hy, hdl, hw, hgl, hv⟩ := fourier_core c ripples tails qmin mqmax scale baseline ok hf hq hne hres
    refine ⟨y, direct c baseline y, hy, ?_, hdl, ?_⟩
    · unfold extendedG
      rw [hy, Option.bind_some, if_pos hs]; rfl
    · intro n h0 h1 h2
      unfold skipfft at hs
      rw [Bool.and_eq_true, decide_eq_true_eq, decide_eq_true_eq] at hs
      obtain ⟨s1, s2⟩ := hs
      have hhi : Real.pi / c.par.dr ≤ mqmax := by
        rcases hcut with h | h
        · exfalso; apply s1
          unfold getQmax
          exact lt_of_le_of_lt (min_le_left _ _) h
        · exact h
      rw [← hv n h1 h2]
      exact (full_window c ripples tails qmin mqmax baseline ok hf hne y hdl w hw (by omega) hhi n h0 h1 h2).symm

/-- A non-trivial case: rmin 1, rmax 2, step 1/4, qmax 5 below the Nyquist limit 4π; the Fourier
branch is taken. -/
theorem fourier_example :
    let c := evaluated (⟨1, 2, 1 / 4, 10⟩ : Par ℝ) 0 0 ⟨fun _ => -1, fun _ => 1, fun _ _ => 1⟩ []
    Ok c.par 0 0 ∧ Fresh c 0 0 ∧ QOk 0 5 ∧ rgrid c.par.rmin c.par.rmax c.par.dr ≠ [] ∧
    c.lim.emax = 8 ∧ 1 / 2 ^ 26 < getQstep c.lim.emax c.par.dr ∧ skipfft c 0 5 = false := by
  simp only
  have hok : Ok (⟨1, 2, 1 / 4, 10⟩ : Par ℝ) 0 0 :=
    ⟨by norm_num, by norm_num, by norm_num, by norm_num, by norm_num⟩
  have e1 : rmaxSteps (2 : ℝ) (1 / 4) = 8 := by
    unfold rmaxSteps
    have : (2 : ℝ) / (1 / 4) = ((8 : ℤ) : ℝ) := by norm_num
    rw [this, Int.ceil_intCast]
  have e2 : rminSteps (1 : ℝ) (1 / 4) = 4 := by
    unfold rminSteps eps
    have : (1 : ℝ) / (1 / 4) = ((4 : ℤ) : ℝ) := by norm_num
    rw [this, Int.ceil_intCast]
    simp only
    rw [if_neg]
    push_cast
    rw [abs_of_pos (by norm_num)]
    norm_num
  have e3 : (evaluated (⟨1, 2, 1 / 4, 10⟩ : Par ℝ) 0 0 ⟨fun _ => -1, fun _ => 1, fun _ _ => 1⟩ []).lim.emax = 8 := by
    unfold evaluated rlimits rescaled
    simp only [e1, e2]
    norm_num [e1]
  have e4 : getQstep 8 (1 / 4) = Real.pi / 2 := by
    unfold getQstep
    rw [if_pos (by norm_num), pad2_eq]
    have : Nat.clog 2 (Int.toNat 8) = 3 := by decide
    rw [this]
    norm_num
  refine ⟨hok, evaluated_fresh _ 0 0 _ [] hok, ⟨le_refl _, by norm_num⟩, ?_, e3, ?_, ?_⟩
  · unfold evaluated rgrid
    simp only [e1, e2]
    intro h
    have := congrArg List.length h
    rw [List.length_map, length_intRange] at this
    simp at this
  · rw [e3]
    change 1 / 2 ^ 26 < getQstep 8 (1 / 4)
    rw [e4]
    have := Real.pi_gt_three
    norm_num
    linarith
  · unfold skipfft
    have : getQmax 5 (1 / 4) < Real.pi / (1 / 4) - eps := by
      unfold getQmax eps
      have := Real.pi_gt_three
      rw [min_eq_left (by rw [div_div_eq_mul_div]; linarith)]
      rw [div_div_eq_mul_div]
      norm_num
      linarith
    change (decide (¬ getQmax 5 (1 / 4) < Real.pi / (1 / 4) - eps) && _) = false
    rw [decide_eq_false (not_not.2 this), Bool.false_and]

end Verif.Fft
