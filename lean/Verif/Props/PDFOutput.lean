import Verif.Model.PDFOutput
import Verif.Props.PDFHistory
import Verif.Props.PDFCache
import Verif.Props.Fft
/-! C88: G(r) and F(Q) of a PDFCalculator after any history of evaluations, configuration and baseline calls, serial and parallel. -/
set_option linter.unusedSectionVars false
namespace Verif.PDFHist
open Verif.Eval Verif.Diff Verif.KindDiff Verif.History Verif.PDFGrid Verif.PDFCache Verif.R3 Verif.Lattice Verif.Geo
open scoped BigOperators

/-! ### Specification -/

/-- The first step of the extended range. -/
noncomputable def firstStep (c : PCfg) : ℤ := max 0 ⌈(c.par.rmin - c.ripples - 1 / 2 ^ 26) / c.par.dr⌉

/-- The step after the last of the extended range. -/
noncomputable def endStep (c : PCfg) : ℤ := ⌈(c.par.rmax + c.ripples) / c.par.dr⌉

/-- The number of Q points: the least power of two that is not below the number of steps from r = 0. -/
noncomputable def qPoints (c : PCfg) : ℕ := 2 ^ Nat.clog 2 (endStep c).toNat

/-- The step in Q. -/
noncomputable def qStep (c : PCfg) : ℝ := Real.pi / ((qPoints c : ℝ) * c.par.dr)

/-- The sine transform over the extended range of a function given at the steps. -/
noncomputable def transform (c : PCfg) (g : ℤ → ℝ) (q : ℝ) : ℝ :=
  c.par.dr * ∑ n ∈ Finset.Ico (firstStep c) (endStep c), g n * Real.sin (q * ((n : ℝ) * c.par.dr))

/-- The inverse sine transform of the part of `F` with `qmin ≤ Q < Qmax` (`Qmax` at most the Nyquist limit π/dr). -/
noncomputable def fromWindow (c : PCfg) (qmin qmax : ℝ) (F : ℝ → ℝ) (r : ℝ) : ℝ :=
  open Classical in
  2 / Real.pi * qStep c * ∑ i ∈ Finset.range (qPoints c),
    if qmin - 1 / 2 ^ 26 ≤ i * qStep c ∧ i * qStep c < min qmax (Real.pi / c.par.dr) then F (i * qStep c) * Real.sin (i * qStep c * r) else 0

/-- The number density: atoms per volume of the cell, zero for clusters. -/
noncomputable def numberDensity (x : RStru) : ℝ :=
  match x.kind with
  | .atomic => 0
  | .periodic L => atoms (sitesOf x) / L.volume
  | .crystal L _ => atoms (sitesOf x) / L.volume

/-- The baseline of a structure: −4π times number density times the fraction of pairs let through by the mask for the linear one,
as it is for the others. -/
noncomputable def baseOf (c : PCfg) (x : RStru) : Baseline → ℝ → ℝ
  | .linear _, r => -(4 * Real.pi * numberDensity x * activeFraction (fun i j => c.mask i j x.atoms[i]? x.atoms[j]?) (sitesOf x)) * r
  | .other f, r => f r

/-- RDF over r plus baseline, at the step `n`, for a structure with peak tails `t`. -/
noncomputable def perR (c : PCfg) (x : RStru) (t : ℝ) (b : Baseline) (n : ℤ) : ℝ :=
  struRDF c x (counted c t (drawn c.prof c.par.dr n)) / ((n : ℝ) * c.par.dr) + baseOf c x b ((n : ℝ) * c.par.dr)

/-- The configuration with the extension for ripples that is left for a structure with peak tails `t`: ripples and tails are reduced in
proportion when together they exceed the maximal extension. -/
noncomputable def PCfg.given (c : PCfg) (t : ℝ) : PCfg :=
  open Classical in
  { c with ripples := if c.ripples + t ≤ c.par.maxext then c.ripples else c.ripples * (c.par.maxext / (c.ripples + t)) }

variable {C S : Type}

/-- The cached structure data come from states of the masks `m` which say what the configuration says. -/
structure Masked (conf : C → PCfg) (stru : S → RStru) (k : Cls C S) (m : C → S → Mask.State) : Prop where
  reach : ∀ c x, Mask.Reach (m c x)
  cache : ∀ c x, k.cache c x = cacheOf (conf c).lookup (m c x).dflt (m c x).inv (sitesOf (stru x))
  mask : ∀ c x i j, i < (stru x).atoms.length → j < (stru x).atoms.length →
    Mask.getPairMask (m c x) i j = (conf c).mask i j (stru x).atoms[i]? (stru x).atoms[j]?

/-- The calls of a history that are calls of Model/PDFHistory.lean. -/
def calls (ops : List (OOp C S)) : List (POp C S) := ops.filterMap fun o => match o with | .call op => some op | .setBaseline _ => none

/-- The baseline in place after a history. -/
noncomputable def lastBase (b : Baseline) (ops : List (OOp C S)) : Baseline :=
  ops.foldl (fun b o => match o with | .call _ => b | .setBaseline b' => b') b

/-- The results `G` (by envelope) and `F` are those of the function `g` at the steps: F(Q) on the multiples of the Q step below Qmax is the
sine transform of `g`, and G(r) on the r grid is the inverse transform of its part in the Q window, times the envelope.  At r = 0 the latter is said
only when `atZero`; a Qmax within 2^-26 below the Nyquist limit, which the code takes for the limit, is left out. -/
structure Output (c : PCfg) (qmin qmax : ℝ) (g : ℤ → ℝ) (atZero : Prop) (G : (ℝ → ℝ) → Option (List ℝ)) (F : Option (List ℝ)) : Prop where
  pdf : qmax < Real.pi / c.par.dr - 1 / 2 ^ 26 ∨ Real.pi / c.par.dr ≤ qmax → ∀ env : ℝ → ℝ, ∃ z, G env = some z ∧
    z.length = (rgrid c.par.rmin c.par.rmax c.par.dr).length ∧
    ∀ (m : ℕ) (n : ℤ), (rgrid c.par.rmin c.par.rmax c.par.dr)[m]? = some ((n : ℝ) * c.par.dr) → (n = 0 → atZero) →
      z[m]? = some (fromWindow c qmin qmax (transform c g) ((n : ℝ) * c.par.dr) * env ((n : ℝ) * c.par.dr))
  f : ∃ z, F = some z ∧ (∀ i : ℕ, i < z.length ↔ (i : ℝ) * qStep c < min qmax (Real.pi / c.par.dr)) ∧
    ∀ i : ℕ, i < z.length → z[i]? = some (transform c g (i * qStep c))

/-! ### Proof: ranges -/

theorem rescaled_given {c : PCfg} {t : ℝ} : (rescaled c.par.maxext c.ripples t).1 = (c.given t).ripples := by
  unfold rescaled PCfg.given
  dsimp only
  by_cases h : c.ripples + t ≤ c.par.maxext
  · rw [if_neg (not_lt.2 h), if_pos h]
  · rw [if_pos (not_le.1 h), if_neg h]

theorem given_fits {c : PCfg} {t : ℝ} (h : c.ripples + t ≤ c.par.maxext) : c.given t = c := by
  unfold PCfg.given
  rw [if_pos h]

theorem first_end {c : PCfg} {tails : ℝ} (ok : PDFGrid.Ok c.par c.ripples tails)
    (hne : rgrid c.par.rmin c.par.rmax c.par.dr ≠ []) :
    (rlimits c.par c.ripples tails).emin = firstStep (c.given tails) ∧ (rlimits c.par c.ripples tails).emax = endStep (c.given tails) := by
  have hd : eps < c.par.dr := ok.step
  have hd0 : 0 < c.par.dr := lt_trans eps_pos hd
  unfold rlimits
  rw [if_neg (not_empty hne)]
  dsimp only
  rw [rescaled_given]
  unfold firstStep endStep
  rw [rminSteps_ceil _ hd, rmaxSteps_ceil _ hd0]
  exact ⟨rfl, rfl⟩

/-- The points of the extended range of a structure are points of the one followed. -/
theorem given_extended {c : PCfg} {t : ℝ} (ok : PDFGrid.Ok c.par c.ripples t) (hne : rgrid c.par.rmin c.par.rmax c.par.dr ≠ []) {n : ℤ}
    (h1 : firstStep (c.given t) ≤ n) (h2 : n < endStep (c.given t)) : Extended c n := by
  have hd : eps < c.par.dr := ok.step
  have hd0 : 0 < c.par.dr := lt_trans eps_pos hd
  have hrip := ok.rip
  have ht := ok.tls
  have hext := ok.ext
  have e : (c.given t).par = c.par := rfl
  unfold firstStep at h1
  unfold endStep at h2
  rw [e, max_le_iff, Int.ceil_le, div_le_iff₀ hd0] at h1
  rw [e, Int.lt_ceil, lt_div_iff₀ hd0] at h2
  have hle : (c.given t).ripples ≤ min c.ripples c.par.maxext := by
    unfold PCfg.given
    dsimp only
    split
    · next h => exact le_min (le_refl _) (by linarith)
    · next h =>
      have hs : 0 < c.ripples + t := by linarith
      refine le_min ?_ ?_
      · refine mul_le_of_le_one_right hrip ?_
        rw [div_le_one hs]
        linarith
      · rw [mul_div_assoc', div_le_iff₀ hs]
        nlinarith
  exact ⟨hne, h1.1, by linarith [h1.2], by linarith⟩

theorem transform_list (c : PCfg) (g : ℤ → ℝ) (l : List ℝ) (hl : (l.length : ℤ) = endStep c - firstStep c)
    (hg : ∀ n, firstStep c ≤ n → n < endStep c → l.getD (n - firstStep c).toNat 0 = g n) (q : ℝ) :
    Fft.sineTransform l c.par.dr (firstStep c) q = transform c g q := by
  unfold Fft.sineTransform transform
  congr 1
  refine Finset.sum_bij' (fun i _ => firstStep c + (i : ℤ)) (fun n _ => (n - firstStep c).toNat) ?_ ?_ ?_ ?_ ?_
  · intro i hi
    rw [Finset.mem_range] at hi
    rw [Finset.mem_Ico]
    omega
  · intro n hn
    rw [Finset.mem_Ico] at hn
    rw [Finset.mem_range]
    omega
  · intro i _
    omega
  · intro n hn
    rw [Finset.mem_Ico] at hn
    omega
  · intro i hi
    rw [Finset.mem_range] at hi
    rw [← hg _ (by omega) (by omega)]
    have : (firstStep c + (i : ℤ) - firstStep c).toNat = i := by omega
    rw [this]
    push_cast
    rfl

theorem ext_points {conf : C → PCfg} {stru : S → RStru} {k : Cls C S} {s : Sorter} (hk : IsPDFCalculator s conf stru k) (hr : Regular conf stru k)
    (d : Data) (c : C) (x : S) (v : ℤ → ℝ) (h : Agrees k (fun c n => Looked (conf c) n) d c x v)
    (hne : rgrid (conf c).par.rmin (conf c).par.rmax (conf c).par.dr ≠ []) (base : ℝ → ℝ) (y : List ℝ)
    (hy : (⟨(conf c).par, d.lim, d.value⟩ : PDFGrid.Calc ℝ).extendedRDFperR d.cache.rdfScale = some y) :
    let l := Fft.direct ⟨(conf c).par, d.lim, d.value⟩ base y
    (l.length : ℤ) = endStep ((conf c).given (k.tails c x)) - firstStep ((conf c).given (k.tails c x)) ∧ ∀ n, firstStep ((conf c).given (k.tails c x)) ≤ n → n < endStep ((conf c).given (k.tails c x)) → Seen (conf c) n →
      l.getD (n - firstStep ((conf c).given (k.tails c x))).toNat 0 = v n * d.cache.rdfScale / ((n : ℝ) * (conf c).par.dr) + base ((n : ℝ) * (conf c).par.dr) := by
  intro l
  have ok := hr.ok c x
  have hd : eps < (conf c).par.dr := ok.step
  have hd0 : 0 < (conf c).par.dr := lt_trans eps_pos hd
  have hl : d.lim = rlimits (conf c).par (conf c).ripples (k.tails c x) := by rw [h.lim]; unfold Cls.lim; rw [hk.par, hk.ripples]
  obtain ⟨e1, e2⟩ := first_end ok hne
  rw [← hl] at e1 e2
  have hf : Fresh (⟨(conf c).par, d.lim, d.value⟩ : PDFGrid.Calc ℝ) (conf c).ripples (k.tails c x) := ⟨hl, h.len⟩
  obtain ⟨y', hy', -, hdl⟩ := Fft.rdfperr_some (⟨(conf c).par, d.lim, d.value⟩ : PDFGrid.Calc ℝ) _ _ d.cache.rdfScale ok hf base
  obtain ⟨u, hu, hul, huv⟩ := ext_spec (⟨(conf c).par, d.lim, d.value⟩ : PDFGrid.Calc ℝ) _ _ d.cache.rdfScale ok hf
  obtain rfl : y' = y := Option.some.inj (hy'.symm.trans hy)
  dsimp only at hdl hul huv
  rw [e1, e2] at hdl hul
  refine ⟨hdl, fun n h1 h2 hn => ?_⟩
  have hx : ∀ i, i < (endStep ((conf c).given (k.tails c x)) - firstStep ((conf c).given (k.tails c x))).toNat →
      ((⟨(conf c).par, d.lim, d.value⟩ : PDFGrid.Calc ℝ).extendedRgrid)[i]? = some (((firstStep ((conf c).given (k.tails c x)) + (i : ℤ) : ℤ) : ℝ) * (conf c).par.dr) := by
    intro i hi
    unfold Calc.extendedRgrid
    dsimp only
    rw [e1, e2, List.getElem?_map, List.getElem?_eq_getElem (by rw [length_intRange]; omega), getElem_intRange]
    rfl
  have hn0 : firstStep ((conf c).given (k.tails c x)) + ((n - firstStep ((conf c).given (k.tails c x))).toNat : ℤ) = n := by omega
  have hgrid := hx (n - firstStep ((conf c).given (k.tails c x))).toNat (by omega)
  rw [hn0] at hgrid
  have hval := huv n (by rw [e1]; exact h1) (by rw [e2]; exact h2)
  rw [e1] at hval
  have hy2 : y' = List.zipWith (fun r y => if r > 0 + eps then y / r else 0) (⟨(conf c).par, d.lim, d.value⟩ : PDFGrid.Calc ℝ).extendedRgrid u := by
    unfold Calc.extendedRDFperR at hy
    rw [hu, Option.map_some] at hy
    exact (Option.some.inj hy).symm
  have hloo : Looked (conf c) n := ⟨given_extended ok hne h1 h2, hn⟩
  show (Fft.direct _ base y').getD _ 0 = _
  unfold Fft.direct
  rw [List.getD_eq_getElem?_getD, List.getElem?_zipWith, hgrid, hy2, List.getElem?_zipWith, hgrid, hval]
  simp only [Option.getD_some]
  congr 1
  rw [h.val n hloo]
  by_cases h0 : n = 0
  · subst h0
    rw [if_neg (by simp; exact eps_pos.le)]
    simp
  · rw [if_pos]
    have hpos : 0 ≤ n := hloo.1.2.1
    have : (1 : ℝ) ≤ n := by exact_mod_cast (by omega : (1 : ℤ) ≤ n)
    rw [zero_add]
    nlinarith

theorem pad_points (c : PCfg) : Fft.pad2 (endStep c).toNat = qPoints c := Fft.pad2_eq _

theorem window_eq (c : PCfg) (d : Data) (e1 : d.lim.emin = firstStep c) (e2 : d.lim.emax = endStep c) (hpos : 0 < endStep c) (qmin mqmax : ℝ)
    (l : List ℝ) (g : ℤ → ℝ) (hl : ∀ q, Fft.sineTransform l c.par.dr (firstStep c) q = transform c g q) (n : ℤ) :
    Fft.windowed ⟨c.par, d.lim, d.value⟩ qmin mqmax l n = fromWindow c qmin mqmax (transform c g) ((n : ℝ) * c.par.dr) := by
  have hq : Fft.getQstep (endStep c) c.par.dr = qStep c := by
    unfold Fft.getQstep qStep
    rw [if_pos hpos, pad_points]
  unfold Fft.windowed fromWindow
  dsimp only
  rw [e1, e2, pad_points, hq]
  congr 1
  refine Finset.sum_congr rfl fun i _ => ?_
  rw [hl]
  rfl

/-- The output of a calculator whose data agree with a structure and a value, G before the envelopes on the extended range. -/
theorem ext_of_agrees {conf : C → PCfg} {stru : S → RStru} {k : Cls C S} {s : Sorter} (hk : IsPDFCalculator s conf stru k)
    (hr : Regular conf stru k) (d : Data) (c : C) (x : S) (v : ℤ → ℝ) (h : Agrees k (fun c n => Looked (conf c) n) d c x v)
    (hne : rgrid (conf c).par.rmin (conf c).par.rmax (conf c).par.dr ≠ []) (hres : 1 / 2 ^ 26 < qStep ((conf c).given (k.tails c x))) (base : ℝ → ℝ) (qmin mqmax : ℝ)
    (hq : Fft.QOk qmin mqmax) :
    ∃ g : ℤ → ℝ, (∀ n, firstStep ((conf c).given (k.tails c x)) ≤ n → n < endStep ((conf c).given (k.tails c x)) → Seen (conf c) n →
        g n = v n * d.cache.rdfScale / ((n : ℝ) * (conf c).par.dr) + base ((n : ℝ) * (conf c).par.dr)) ∧
      (mqmax < Real.pi / (conf c).par.dr - 1 / 2 ^ 26 ∨ Real.pi / (conf c).par.dr ≤ mqmax →
        ∃ G, Fft.extendedG ⟨k.par c, d.lim, d.value⟩ qmin mqmax d.cache.rdfScale base = some G ∧ (G.length : ℤ) = d.lim.emax - d.lim.emin ∧
          ∀ n : ℤ, d.lim.emin ≤ n → n < d.lim.emax → (n = 0 → base 0 = 0) → G.getD (n - d.lim.emin).toNat 0 =
            fromWindow ((conf c).given (k.tails c x)) qmin mqmax (transform ((conf c).given (k.tails c x)) g) ((n : ℝ) * (conf c).par.dr)) ∧
      ∃ z, Fft.getF ⟨k.par c, d.lim, d.value⟩ mqmax d.cache.rdfScale base = some z ∧
        (∀ i : ℕ, i < z.length ↔ (i : ℝ) * qStep ((conf c).given (k.tails c x)) < min mqmax (Real.pi / (conf c).par.dr)) ∧
        ∀ i : ℕ, i < z.length → z[i]? = some (transform ((conf c).given (k.tails c x)) g (i * qStep ((conf c).given (k.tails c x)))) := by
  have ok := hr.ok c x
  have hd : eps < (conf c).par.dr := ok.step
  have hd0 : 0 < (conf c).par.dr := lt_trans eps_pos hd
  have hl : d.lim = rlimits (conf c).par (conf c).ripples (k.tails c x) := by rw [h.lim]; unfold Cls.lim; rw [hk.par, hk.ripples]
  obtain ⟨e1, e2⟩ := first_end ok hne
  have hlen := h.len
  rw [hk.par]
  have hf : Fresh (⟨(conf c).par, d.lim, d.value⟩ : PDFGrid.Calc ℝ) (conf c).ripples (k.tails c x) := ⟨hl, h.len⟩
  obtain ⟨y, hy, -, -⟩ := Fft.rdfperr_some (⟨(conf c).par, d.lim, d.value⟩ : PDFGrid.Calc ℝ) _ _ d.cache.rdfScale ok hf base
  obtain ⟨p1, p2⟩ := ext_points hk hr d c x v h hne base y hy
  rw [← hl] at e1 e2
  set K : PDFGrid.Calc ℝ := ⟨(conf c).par, d.lim, d.value⟩ with hK
  set l := Fft.direct K base y with hll
  have hlk : (l.length : ℤ) = K.lim.emax - K.lim.emin := by
    show _ = d.lim.emax - d.lim.emin
    rw [e1, e2]; exact p1
  obtain ⟨q1, q2, q3, q4, q5, q6, q7⟩ := Fft.extendedF_spec K _ _ ok hf hne base y hlk
  have hpos : 0 < endStep ((conf c).given (k.tails c x)) := by
    have : K.lim.emax = endStep ((conf c).given (k.tails c x)) := e2
    omega
  have hqs : Fft.getQstep K.lim.emax K.par.dr = qStep ((conf c).given (k.tails c x)) := by
    show Fft.getQstep d.lim.emax (conf c).par.dr = _
    rw [e2]
    unfold Fft.getQstep qStep
    rw [if_pos hpos, pad_points]
    rfl
  have hres' : 1 / 2 ^ 26 < Fft.getQstep K.lim.emax K.par.dr := by rw [hqs]; exact hres
  set g : ℤ → ℝ := fun n => l.getD (n - firstStep ((conf c).given (k.tails c x))).toNat 0 with hg
  have htr := transform_list ((conf c).given (k.tails c x)) g l p1 (fun _ _ _ => rfl)
  refine ⟨g, fun n b1 b2 h2 => p2 n b1 b2 h2, fun hcut => ?_, ?_⟩
  · obtain ⟨y', G, hy', hG, hGl, hGv⟩ := Fft.extendedG_spec K _ _ qmin mqmax d.cache.rdfScale base ok hf hq hne hres' hcut
    obtain rfl : y' = y := Option.some.inj (hy'.symm.trans hy)
    have hGv' : ∀ n : ℤ, K.lim.emin ≤ n → n < K.lim.emax → (n = 0 → base 0 = 0) →
        G.getD (n - K.lim.emin).toNat 0 = fromWindow ((conf c).given (k.tails c x)) qmin mqmax (transform ((conf c).given (k.tails c x)) g) ((n : ℝ) * (conf c).par.dr) := by
      intro n b1 b2 b0
      have hwin : Fft.windowed K qmin mqmax l n = fromWindow ((conf c).given (k.tails c x)) qmin mqmax (transform ((conf c).given (k.tails c x)) g) ((n : ℝ) * (conf c).par.dr) :=
        window_eq ((conf c).given (k.tails c x)) d e1 e2 hpos qmin mqmax l g htr n
      rw [← hwin]
      by_cases hn : 0 < n
      · exact hGv n hn b1 b2
      · have hn0 : n = 0 := by omega
        subst hn0
        rcases hsk : Fft.skipfft K qmin mqmax with _ | _
        · obtain ⟨y2, G2, u1, u2, -, u3⟩ := Fft.fourier_branch K _ _ qmin mqmax d.cache.rdfScale base ok hf hq hne hres' hsk
          obtain rfl : y2 = y' := Option.some.inj (u1.symm.trans hy)
          obtain rfl : G2 = G := Option.some.inj (u2.symm.trans hG)
          exact u3 0 b1 b2
        · have hG0 : G = l := by
            unfold Fft.extendedG at hG
            rw [hy, Option.bind_some, if_pos hsk] at hG
            exact (Option.some.inj hG).symm
          have hw : Fft.windowed K qmin mqmax l 0 = 0 := by
            unfold Fft.windowed
            rw [Finset.sum_eq_zero, mul_zero]
            intro i _
            split
            · simp
            · rfl
          have hem : K.lim.emin = 0 := by omega
          refine Eq.trans ?_ hw.symm
          rw [hG0, hem]
          have : ((0 : ℤ) - 0).toNat = 0 := rfl
          rw [this]
          have hx : l.getD 0 0 = base 0 := by
            obtain ⟨u, hu, hul, huv⟩ := ext_spec K _ _ d.cache.rdfScale ok hf
            have hy2 : y' = List.zipWith (fun r y => if r > 0 + eps then y / r else 0) K.extendedRgrid u := by
              unfold Calc.extendedRDFperR at hy
              rw [hu, Option.map_some] at hy
              exact (Option.some.inj hy).symm
            have hgr : K.extendedRgrid[0]? = some 0 := by
              unfold Calc.extendedRgrid
              rw [List.getElem?_map, List.getElem?_eq_getElem (by rw [length_intRange]; omega), getElem_intRange, hem]
              simp
            have hu0 := huv 0 (by omega) b2
            rw [hem, this] at hu0
            rw [hll]
            unfold Fft.direct
            rw [List.getD_eq_getElem?_getD, List.getElem?_zipWith, hgr, hy2, List.getElem?_zipWith, hgr, hu0]
            simp only [Option.getD_some]
            rw [if_neg (by simp; exact eps_pos.le), zero_add]
          rw [hx]
          exact b0 rfl
    exact ⟨G, hG, hGl, hGv'⟩
  · obtain ⟨s1, s2, s3⟩ := Fft.qsteps (Fft.pad2 K.lim.emax.toNat) (Fft.pad2_pos _) K.par.dr qmin mqmax ok.step hq (by rw [← q3]; exact hres')
    rw [← q3] at s2 s3
    have hdq : 0 < qStep ((conf c).given (k.tails c x)) := lt_trans (by positivity) hres
    have hQ : ∀ i : ℕ, (i : ℤ) < qmaxSteps (Fft.getQmax mqmax K.par.dr) (Fft.getQstep K.lim.emax K.par.dr) ↔
        (i : ℝ) * qStep ((conf c).given (k.tails c x)) < min mqmax (Real.pi / (conf c).par.dr) := by
      intro i
      rw [hqs]
      unfold qmaxSteps
      rw [if_neg (not_le.2 hdq), Int.lt_ceil, lt_div_iff₀ hdq]
      exact_mod_cast Iff.rfl
    refine ⟨(Fft.extendedF K base y).take (qmaxSteps (Fft.getQmax mqmax K.par.dr) (Fft.getQstep K.lim.emax K.par.dr)).toNat, ?_, ?_, ?_⟩
    · unfold Fft.getF
      rw [hy, Option.bind_some]
      unfold slice
      rw [if_pos ⟨le_refl _, s2, by rw [q4]; exact s3⟩]
      simp
    · intro i
      refine Iff.trans ?_ (hQ i)
      rw [List.length_take, q4]
      omega
    · intro i hi
      rw [List.length_take, q4] at hi
      have hi2 : i < (Fft.extendedF K base y).length := by rw [q4]; omega
      rw [List.getElem?_take, if_pos (by omega), List.getElem?_eq_getElem hi2]
      congr 1
      have hN : (Fft.fftgtof l K.par.dr ((K.lim.emin.toNat : ℝ) * K.par.dr)).length = Fft.pad2 K.lim.emax.toNat := by rw [← q5]; exact q4
      obtain ⟨-, -, -, hsp⟩ := Fft.fftgtof_spec l K.par.dr ((K.lim.emin.toNat : ℝ) * K.par.dr) q6 hd0 (by have : (0 : ℝ) < K.par.dr := hd0; positivity)
      have := hsp i (by rw [hN]; omega)
      rw [hN, ← q3, hqs, mul_div_assoc, div_self (ne_of_gt (show (0 : ℝ) < K.par.dr from hd0)), mul_one, round_natCast] at this
      rw [← List.getD_eq_getElem _ 0 hi2, q5, this, ← htr]
      congr 1
      have : ((K.lim.emin.toNat : ℤ)) = firstStep ((conf c).given (k.tails c x)) := by
        have : K.lim.emin = firstStep ((conf c).given (k.tails c x)) := e1
        omega
      rw [this]

/-- The output of a calculator whose data agree with a structure and a value. -/
theorem out_of_agrees {conf : C → PCfg} {stru : S → RStru} {k : Cls C S} {s : Sorter} (hk : IsPDFCalculator s conf stru k)
    (hr : Regular conf stru k) (d : Data) (c : C) (x : S) (v : ℤ → ℝ) (h : Agrees k (fun c n => Looked (conf c) n) d c x v)
    (hne : rgrid (conf c).par.rmin (conf c).par.rmax (conf c).par.dr ≠ []) (hres : 1 / 2 ^ 26 < qStep ((conf c).given (k.tails c x))) (base : ℝ → ℝ) (qmin mqmax : ℝ)
    (hq : Fft.QOk qmin mqmax) :
    ∃ g : ℤ → ℝ, (∀ n, firstStep ((conf c).given (k.tails c x)) ≤ n → n < endStep ((conf c).given (k.tails c x)) → Seen (conf c) n →
        g n = v n * d.cache.rdfScale / ((n : ℝ) * (conf c).par.dr) + base ((n : ℝ) * (conf c).par.dr)) ∧
      Output ((conf c).given (k.tails c x)) qmin mqmax g (base 0 = 0) (Fft.getPDF ⟨k.par c, d.lim, d.value⟩ qmin mqmax d.cache.rdfScale base)
        (Fft.getF ⟨k.par c, d.lim, d.value⟩ mqmax d.cache.rdfScale base) := by
  obtain ⟨g, hg, hext, hF⟩ := ext_of_agrees hk hr d c x v h hne hres base qmin mqmax hq
  refine ⟨g, hg, fun hcut env => ?_, hF⟩
  obtain ⟨G, hG, hGl, hGv'⟩ := hext hcut
  have ok := hr.ok c x
  have hd0 : 0 < (conf c).par.dr := lt_trans eps_pos ok.step
  have hl : d.lim = rlimits (conf c).par (conf c).ripples (k.tails c x) := by rw [h.lim]; unfold Cls.lim; rw [hk.par, hk.ripples]
  rw [hk.par] at hG ⊢
  have hf : Fresh (⟨(conf c).par, d.lim, d.value⟩ : PDFGrid.Calc ℝ) (conf c).ripples (k.tails c x) := ⟨hl, h.len⟩
  set K : PDFGrid.Calc ℝ := ⟨(conf c).par, d.lim, d.value⟩ with hK
  have hlim : d.lim = K.lim := rfl
  rw [hlim] at hGl hGv'
  have hgrid : ∀ (m : ℕ) (n : ℤ), (rgrid (conf c).par.rmin (conf c).par.rmax (conf c).par.dr)[m]? = some ((n : ℝ) * (conf c).par.dr) →
      n = rminSteps (conf c).par.rmin (conf c).par.dr + m := by
    intro m n hm
    unfold rgrid at hm
    obtain ⟨hb, hm⟩ := List.getElem?_eq_some_iff.1 hm
    rw [List.getElem_map, getElem_intRange] at hm
    have := mul_right_cancel₀ hd0.ne' hm
    exact_mod_cast this.symm
  have hxl : (K.extendedRgrid.length : ℤ) = K.lim.emax - K.lim.emin := by
    unfold Calc.extendedRgrid; rw [List.length_map, length_intRange]; omega
  obtain ⟨z, hz, hzl, hzv⟩ := cut_spec K.par _ _ ok (List.zipWith (fun r y => y * env r) K.extendedRgrid G)
    (by rw [List.length_zipWith, ← hf.1]; omega)
  refine ⟨z, ?_, hzl, fun m n hm h0 => ?_⟩
  · unfold Fft.getPDF
    rw [hG, Option.bind_some]
    rw [← hf.1] at hz
    exact hz
  · have hmn := hgrid m n hm
    have hml : m < z.length := by
      rw [hzl]
      exact (List.getElem?_eq_some_iff.1 hm).1
    obtain ⟨o1, o2, o3, o4⟩ := limits_order K.par _ _ ok
    obtain ⟨o5, o6⟩ : K.lim.emin ≤ rminSteps K.par.rmin K.par.dr ∧ rmaxSteps K.par.rmax K.par.dr ≤ K.lim.emax := by
      rcases o4 with ⟨o, -⟩ | ⟨o, -, o'⟩
      · exact absurd o hne
      · rw [← hf.1] at o o'; exact ⟨o, o'⟩
    have hlg : z.length = (rmaxSteps K.par.rmax K.par.dr - rminSteps K.par.rmin K.par.dr).toNat := by
      rw [hzl]
      unfold rgrid
      rw [List.length_map, length_intRange]
    have hmn' : n = rminSteps K.par.rmin K.par.dr + m := hmn
    have b1 : K.lim.emin ≤ n := by omega
    have b2 : n < K.lim.emax := by omega
    rw [hzv m hml, ← hf.1]
    have hidx : (rminSteps K.par.rmin K.par.dr - K.lim.emin).toNat + m = (n - K.lim.emin).toNat := by
      have : n = rminSteps K.par.rmin K.par.dr + m := hmn
      omega
    have hgr : K.extendedRgrid[(n - K.lim.emin).toNat]? = some ((n : ℝ) * (conf c).par.dr) := by
      unfold Calc.extendedRgrid
      have b2' : n < K.lim.emax := b2
      have b1' : K.lim.emin ≤ n := b1
      rw [List.getElem?_map, List.getElem?_eq_getElem (by rw [length_intRange]; omega), getElem_intRange]
      have : K.lim.emin + ((n - K.lim.emin).toNat : ℤ) = n := by omega
      rw [this]
      rfl
    have hGn := hGv' n b1 b2 h0
    have hGlt : (n - K.lim.emin).toNat < G.length := by
      have b2' : n < K.lim.emax := b2
      have b1' : K.lim.emin ≤ n := b1
      omega
    rw [hidx, List.getElem?_zipWith, hgr, List.getElem?_eq_getElem hGlt]
    rw [List.getD_eq_getElem _ _ hGlt] at hGn
    simp only
    rw [hGn]
    rfl

/-! ### Proof: baseline -/

theorem atoms_occSum (x : RStru) : occSum (geom x).mult x.atoms 0 = atoms (sitesOf x) := by
  have h : ∀ (l : List Atom) (i : ℕ), occSum (geom x).mult l i =
      ((l.zipIdx i).map fun p => (p.1.occupancy : ℝ) * ((geom x).mult p.2 : ℝ)).sum := by
    intro l
    induction l with
    | nil => intro i; rfl
    | cons a l ih =>
      intro i
      rw [List.zipIdx_cons, List.map_cons, List.sum_cons, ← ih]
      rfl
  unfold atoms sitesOf
  rw [h, List.map_map]
  rfl

theorem density_eq (x : RStru) : densityOf (geom x).mult x = numberDensity x := by
  unfold densityOf numberDensity
  rw [atoms_occSum]
  cases x.kind <;> rfl

/-- The kind of baseline, with the function of one that is not linear. -/
def Baseline.form : Baseline → Option (ℝ → ℝ)
  | .linear _ => none
  | .other f => some f

theorem form_update (ca : Cache) (r : ℝ) (b : Baseline) : (b.update ca r).form = b.form := by cases b <;> rfl

theorem baseOf_form (c : PCfg) (x : RStru) (b b' : Baseline) (h : b.form = b'.form) : baseOf c x b = baseOf c x b' := by
  cases b with
  | linear a =>
    cases b' with
    | linear a' => rfl
    | other f => cases h
  | other f =>
    cases b' with
    | linear a' => cases h
    | other f' => cases h; rfl

theorem run_pc (k : Cls C S) (density : S → ℝ) (ops : List (OOp C S)) : ∀ s : OC C S,
    (ocRun k density s ops).pc = pcRun k s.pc (calls ops) := by
  induction ops with
  | nil => intro s; rfl
  | cons o ops ih =>
    intro s
    show (ocRun k density (ocStep k density s o) ops).pc = _
    rw [ih]
    cases o with
    | call op => rfl
    | setBaseline b => rfl

theorem run_form (k : Cls C S) (density : S → ℝ) (ops : List (OOp C S)) : ∀ (s : OC C S) (b : Baseline), s.base.form = b.form →
    (ocRun k density s ops).base.form = (lastBase b ops).form := by
  induction ops with
  | nil => intro s b h; exact h
  | cons o ops ih =>
    intro s b h
    cases o with
    | call op =>
      refine ih (ocStep k density s (.call op)) b ?_
      show (if resets k s.pc op then s.base.update _ _ else s.base).form = _
      split
      · rw [form_update]; exact h
      · exact h
    | setBaseline b' => exact ih (ocStep k density s (.setBaseline b')) b' rfl

theorem evalSt_cur {B : Type} {G : Type} [AddCommGroup G] (K : History.Calc C S B G) (st : St C S G) (x : S) : (evalSt K st x).cur = x := by
  have ho : (optFinal K x st).cur = x := by
    unfold optFinal
    split
    · exact basicFinal_cur K st.cpuindex st.ncpu x st
    · split
      · exact basicFinal_cur K st.cpuindex st.ncpu x (midFast K _ x _ (setUsed .optimized st))
      · exact setStru_cur K x _
  rw [evalSt_eq]
  cases st.evtype with
  | none => exact basicFinal_cur K _ _ x _
  | basic => exact basicFinal_cur K _ _ x _
  | optimized => exact ho
  | check =>
    dsimp only
    unfold checkFinal
    dsimp only
    split
    · exact ho
    · exact basicFinal_cur K st.cpuindex st.ncpu x (doSave (optFinal K x st))

/-- The baseline after a reset for the structure `x`. -/
theorem update_fn {conf : C → PCfg} {stru : S → RStru} {k : Cls C S} {m : C → S → Mask.State} (hm : Masked conf stru k m) (c : C) (x : S)
    (hpos : 0 < atoms (sitesOf (stru x))) (b b' : Baseline) (hb : b.form = b'.form) :
    (b.update (k.cache c x) (densityOf (geom (stru x)).mult (stru x))).fn = baseOf (conf c) (stru x) b' := by
  rw [← baseOf_form (conf c) (stru x) b b' hb]
  funext r
  cases b with
  | other f => rfl
  | linear a =>
    show (k.cache c x).slope _ * r = _
    rw [hm.cache, slope_spec _ _ (hm.reach c x) _ _ hpos, density_eq]
    show _ = -(4 * Real.pi * numberDensity (stru x) * activeFraction _ _) * r
    congr 3
    unfold activeFraction
    congr 1
    have hlen : (sitesOf (stru x)).length = (stru x).atoms.length := by unfold sitesOf; simp
    refine Finset.sum_congr rfl fun i hi => Finset.sum_congr rfl fun j hj => ?_
    rw [Finset.mem_range, hlen] at hi hj
    beta_reduce
    rw [hm.mask c x i j hi hj]

theorem base_zero (c : PCfg) (x : RStru) (b : Baseline) (h : ∀ f, b = .other f → f 0 = 0) : baseOf c x b 0 = 0 := by
  cases b with
  | linear a => exact mul_zero _
  | other f => exact h f rfl

/-- **C88**. After any history of evaluations (full or fast, any evaluator), configuration, baseline and `setStructure` calls, `eval` of a structure leaves
G(r) and F(Q) that are, for the Q range and envelopes of the time of the call, those of a function `g` of the steps which, at the points
looked at, is the RDF of that structure over r plus the baseline in place. -/
theorem pdf_history (s : Sorter) (hs : SortSpec s) (conf : C → PCfg) (stru : S → RStru) (k : Cls C S) (hk : IsPDFCalculator s conf stru k)
    (hr : Regular conf stru k) (m : C → S → Mask.State) (hm : Masked conf stru k m) (c : C) (e : S)
    (b : Baseline) (ops : List (OOp C S)) (ha : Proper (Quiet conf k) k (pcInit k c e 0 1) (calls ops))
    (ht : taintAfter k.control (pcInit k c e 0 1).h false ((calls ops).map POp.op) = false) (x : S) (hpos : 0 < atoms (sitesOf (stru x)))
    (qmin qmax : ℝ) (hq : Fft.QOk qmin qmax) :
    let density := fun x => densityOf (geom (stru x)).mult (stru x)
    let r := ocEval k density (ocRun k density (ocInit k density c e b 0 1) ops) x
    let cf := conf r.pc.h.cfg
    let t := k.tails r.pc.h.cfg x
    rgrid cf.par.rmin cf.par.rmax cf.par.dr ≠ [] → 1 / 2 ^ 26 < qStep (cf.given t) →
    ∃ g : ℤ → ℝ, (∀ n, firstStep (cf.given t) ≤ n → n < endStep (cf.given t) → Seen cf n → g n = perR cf (stru x) t (lastBase b ops) n) ∧
      Output (cf.given t) qmin qmax g (baseOf cf (stru x) (lastBase b ops) 0 = 0) (getPDF k r qmin qmax) (getF k r qmax) := by
  intro density r cf t hne hres
  obtain ⟨hin, ho⟩ := in_calc hk hr
  have hrun : (ocRun k density (ocInit k density c e b 0 1) ops).pc = pcRun k (pcInit k c e 0 1) (calls ops) := run_pc k density ops _
  have hpc : r.pc = pcEval k (pcRun k (pcInit k c e 0 1) (calls ops)) x := by
    rw [← hrun]
    rfl
  obtain ⟨v, hv, hj⟩ := joint_history k _ hin ho 1 (le_refl _) (ghost_lawful hs hk hr).1 _ (quiet_law hs hk hr) c e (calls ops) ha ht x
  obtain ⟨-, hA⟩ := hj 0 Nat.one_pos
  rw [Finset.sum_range_one] at hv
  rw [Nat.cast_zero, Nat.cast_one, ← hpc] at hA
  rw [Nat.cast_one, ← hpc] at hv
  have hbase : r.base.fn = baseOf cf (stru x) (lastBase b ops) := by
    have e1 : r.base = (ocRun k density (ocInit k density c e b 0 1) ops).base.update r.pc.d.cache (density r.pc.h.cur) := rfl
    have e2 : r.pc.h.cur = x := by
      rw [hpc]
      exact evalSt_cur k.control _ x
    rw [e1, e2, hA.cache]
    refine update_fn hm r.pc.h.cfg x hpos _ _ ?_
    refine run_form k density ops (ocInit k density c e b 0 1) b ?_
    exact form_update _ _ b
  obtain ⟨g, h1, h2⟩ := out_of_agrees hk hr r.pc.d r.pc.h.cfg x (v 0) hA hne hres r.base.fn qmin qmax hq
  refine ⟨g, fun n hn1 hn1' hn2 => ?_, ?_⟩
  · rw [h1 n hn1 hn1' hn2, hv, spec_at hs hk hr r.pc.h.cfg x n ⟨given_extended (hr.ok _ x) hne hn1 hn1', hn2⟩ r.pc.d.cache hA.cache, hbase]
    rfl
  · rw [hbase] at h2
    have e3 : getPDF k r qmin qmax = Fft.getPDF ⟨k.par r.pc.h.cfg, r.pc.d.lim, r.pc.d.value⟩ qmin qmax r.pc.d.cache.rdfScale
        (baseOf cf (stru x) (lastBase b ops)) := by
      funext env
      show Fft.getPDF _ _ _ _ r.base.fn env = _
      rw [hbase]
      rfl
    have e4 : getF k r qmax = Fft.getF ⟨k.par r.pc.h.cfg, r.pc.d.lim, r.pc.d.value⟩ qmax r.pc.d.cache.rdfScale
        (baseOf cf (stru x) (lastBase b ops)) := by
      show Fft.getF _ _ _ r.base.fn = _
      rw [hbase]
      rfl
    rw [e3, e4]
    exact h2

theorem output_congr {cf : PCfg} {qmin qmax : ℝ} {g g' : ℤ → ℝ} {z : Prop} {G : (ℝ → ℝ) → Option (List ℝ)} {F : Option (List ℝ)}
    (h : ∀ n, firstStep cf ≤ n → n < endStep cf → g n = g' n) (ho : Output cf qmin qmax g z G F) : Output cf qmin qmax g' z G F := by
  have ht : transform cf g = transform cf g' := by
    funext q
    unfold transform
    congr 1
    refine Finset.sum_congr rfl fun n hn => ?_
    rw [Finset.mem_Ico] at hn
    rw [h n hn.1 hn.2]
  obtain ⟨h1, h2⟩ := ho
  rw [ht] at h1 h2
  exact ⟨h1, h2⟩

/-- **C88** for a range that reaches down to zero (with the ripples) and a cropped profile: G(r) and F(Q) are those of RDF over r plus baseline, the
RDF being the pair sum of C60 at every point. -/
theorem pdf_history_whole (s : Sorter) (hs : SortSpec s) (conf : C → PCfg) (stru : S → RStru) (k : Cls C S) (hk : IsPDFCalculator s conf stru k)
    (hr : Regular conf stru k) (m : C → S → Mask.State) (hm : Masked conf stru k m) (c : C) (e : S)
    (b : Baseline) (ops : List (OOp C S)) (ha : Proper (Quiet conf k) k (pcInit k c e 0 1) (calls ops))
    (ht : taintAfter k.control (pcInit k c e 0 1).h false ((calls ops).map POp.op) = false) (x : S) (hpos : 0 < atoms (sitesOf (stru x)))
    (qmin qmax : ℝ) (hq : Fft.QOk qmin qmax) :
    let density := fun x => densityOf (geom (stru x)).mult (stru x)
    let r := ocEval k density (ocRun k density (ocInit k density c e b 0 1) ops) x
    let cf := conf r.pc.h.cfg
    let t := k.tails r.pc.h.cfg x
    rgrid cf.par.rmin cf.par.rmax cf.par.dr ≠ [] → 1 / 2 ^ 26 < qStep (cf.given t) → cf.par.rmin ≤ cf.ripples → Cropped cf.prof →
    Output (cf.given t) qmin qmax (fun n => struRDF cf (stru x) (counted cf t fun w v => pairTerm cf.prof.y 1 w v ((n : ℝ) * cf.par.dr)) / ((n : ℝ) * cf.par.dr) +
        baseOf cf (stru x) (lastBase b ops) ((n : ℝ) * cf.par.dr))
      (baseOf cf (stru x) (lastBase b ops) 0 = 0) (getPDF k r qmin qmax) (getF k r qmax) := by
  intro density r cf t hne hres hlo hcr
  obtain ⟨g, h1, h2⟩ := pdf_history s hs conf stru k hk hr m hm c e b ops ha ht x hpos qmin qmax hq hne hres
  have ok := hr.ok r.pc.h.cfg x
  refine output_congr (fun n n1 n2 => ?_) h2
  rw [h1 n n1 n2 ⟨Or.inl (by linarith), Or.inr hcr⟩]
  unfold perR
  rw [struRDF_cropped hr _ _ hcr]

/-- **C88**, parallel. A calculator that collects the values of jobs 0 to n-1, in any order, has the same G(r) and F(Q). -/
theorem pdf_parallel (s : Sorter) (hs : SortSpec s) (conf : C → PCfg) (stru : S → RStru) (k : Cls C S) (hk : IsPDFCalculator s conf stru k)
    (hr : Regular conf stru k) (m : C → S → Mask.State) (hm : Masked conf stru k m) (jobs : ℕ)
    (hjobs : 1 ≤ jobs) (c : C) (e : S) (ops : List (POp C S))
    (ha : Proper (Quiet conf k) k (pcInit k c e 0 jobs) ops)
    (ht : taintAfter k.control (pcInit k c e 0 jobs).h false (ops.map POp.op) = false) (x : S) (hpos : 0 < atoms (sitesOf (stru x)))
    (parts : List (List ℝ))
    (hp : parts.Perm ((List.range jobs).map fun j : ℕ => (pcEval k (pcRun k (pcInit k c e j jobs) ops) x).d.value)) (m0 : OC C S)
    (hm0 : m0.pc.h.cfg = (pcEval k (pcRun k (pcInit k c e 0 jobs) ops) x).h.cfg) (qmin qmax : ℝ) (hq : Fft.QOk qmin qmax) :
    let cf := conf m0.pc.h.cfg
    let t := k.tails m0.pc.h.cfg x
    rgrid cf.par.rmin cf.par.rmax cf.par.dr ≠ [] → 1 / 2 ^ 26 < qStep (cf.given t) →
    ∃ r, ocMerge k (fun x => densityOf (geom (stru x)).mult (stru x)) m0 x jobs parts = some r ∧
      ∃ g : ℤ → ℝ, (∀ n, firstStep (cf.given t) ≤ n → n < endStep (cf.given t) → Seen cf n → g n = perR cf (stru x) t m0.base n) ∧
        Output (cf.given t) qmin qmax g (baseOf cf (stru x) m0.base 0 = 0) (getPDF k r qmin qmax) (getF k r qmax) := by
  intro cf t hne hres
  obtain ⟨p, hmerge, hh, hcfg, hca, hA⟩ := merge_agrees s hs conf stru k hk hr jobs hjobs c e ops ha ht x parts hp m0.pc hm0
  set density := fun x => densityOf (geom (stru x)).mult (stru x) with hden
  set r : OC C S := ⟨p, (ocStep k density m0 (.call (.setStructure x))).base⟩ with hrr
  have hbase : r.base.fn = baseOf cf (stru x) m0.base := by
    have e1 : r.base = m0.base.update (pcStep k m0.pc (.setStructure x)).d.cache (density (pcStep k m0.pc (.setStructure x)).h.cur) := rfl
    have e2 : (pcStep k m0.pc (.setStructure x)).h.cur = x := setStru_cur k.control x _
    rw [e1, e2, ← hca, hA.cache]
    exact update_fn hm m0.pc.h.cfg x hpos _ _ rfl
  obtain ⟨g, h1, h2⟩ := out_of_agrees hk hr p.d m0.pc.h.cfg x _ hA hne hres r.base.fn qmin qmax hq
  refine ⟨r, ?_, g, fun n hn1 hn1' hn2 => ?_, ?_⟩
  · unfold ocMerge
    rw [hmerge]
    rfl
  · rw [h1 n hn1 hn1' hn2, spec_at hs hk hr m0.pc.h.cfg x n ⟨given_extended (hr.ok _ x) hne hn1 hn1', hn2⟩ p.d.cache hA.cache, hbase]
    rfl
  · rw [hbase] at h2
    have e3 : getPDF k r qmin qmax = Fft.getPDF ⟨k.par m0.pc.h.cfg, p.d.lim, p.d.value⟩ qmin qmax p.d.cache.rdfScale
        (baseOf cf (stru x) m0.base) := by
      funext env
      show Fft.getPDF ⟨k.par p.h.cfg, _, _⟩ _ _ _ r.base.fn env = _
      rw [hbase, hcfg]
    have e4 : getF k r qmax = Fft.getF ⟨k.par m0.pc.h.cfg, p.d.lim, p.d.value⟩ qmax p.d.cache.rdfScale
        (baseOf cf (stru x) m0.base) := by
      show Fft.getF ⟨k.par p.h.cfg, _, _⟩ _ _ r.base.fn = _
      rw [hbase, hcfg]
    rw [e3, e4]
    exact h2

/-! ### The hypotheses can be met -/

/-- For structures of any one class with atoms in them there is a calculator as in the theorems without masks; a history that changes
configuration and baseline between evaluations ends with a range and a Q range as in `pdf_history_whole`. -/
example (cls : Kind Lat Sym → Prop) (hcls : ∀ a b, cls a → cls b → SameClass a b) (s : Sorter) :
    ∃ k : Cls (ℝ × Bool) {x : RStru // cls x.kind ∧ (geom x).Ok ∧ 0 < atoms (sitesOf x)}, IsPDFCalculator s exConf (fun x => x.1) k ∧
      Regular exConf (fun x => x.1) k ∧ Masked exConf (fun x => x.1) k (fun _ _ => Mask.init) ∧ (∀ c, Cropped (exConf c).prof) ∧
      (exConf (20, false)).par.rmin ≤ (exConf (20, false)).ripples ∧ rgrid (exConf (20, false)).par.rmin (exConf (20, false)).par.rmax (exConf (20, false)).par.dr ≠ [] ∧
      (∀ x, 1 / 2 ^ 26 < qStep ((exConf (20, false)).given (k.tails (20, false) x))) ∧ Fft.QOk 1 25 ∧ (25 : ℝ) < Real.pi / (exConf (20, false)).par.dr - 1 / 2 ^ 26 ∧
      ∀ x y, let ops : List (OOp (ℝ × Bool) _) :=
          [.call (.eval x), .setBaseline (.linear 0), .call (.configure exLess false true), .call (.eval x), .call (.configure (fun _ => (20, false)) true true), .call (.eval y)]
        Proper (Quiet exConf k) k (pcInit k (10, true) x 0 1) (calls ops) ∧ taintAfter k.control (pcInit k (10, true) x 0 1).h false ((calls ops).map POp.op) = false := by
  obtain ⟨k, hk, h1, h2, h3⟩ := calculator_exists s exConf
    (fun x : {x : RStru // cls x.kind ∧ (geom x).Ok ∧ 0 < atoms (sitesOf x)} => x.1) (fun _ _ => 1 / 10) (fun _ => false)
  have hpi := Real.pi_gt_three
  refine ⟨k, hk, ⟨fun x y _ => hcls _ _ x.2.1 y.2.1, fun x => x.2.2.1, fun c x => ?_, ?_, ?_, fun _ _ _ _ _ => rfl, fun _ _ _ _ _ _ _ _ => rfl⟩,
    ⟨fun _ _ => Mask.Reach.init, h3, fun c x i j _ _ => ?_⟩, ?_, ?_, ?_, ?_, ⟨by norm_num, by norm_num⟩, ?_, ?_⟩
  · rw [h1]
    refine ⟨le_refl _, ?_, ?_, ?_, ?_⟩
    · norm_num [exConf]
    · norm_num [exConf]
    · show (0 : ℝ) ≤ if c.2 = true then 2 else 1
      cases c.2 <;> norm_num
    · norm_num
  · intro c x i j _ _ v _ _
    rw [h1]
    exact ⟨by show (0 : ℝ) ≤ 1 / 10; norm_num, le_refl _, le_refl _⟩
  · intro c x lo hi
    exact Debye.reciprocal_distance _ x.2.2.1 lo hi (fun _ _ _ => 1 / 10) (fun _ _ _ => rfl)
  · show Mask.getPairMask Mask.init i j = true
    unfold Mask.getPairMask Mask.init
    simp
  · intro c w _ x h
    show (if |x| < w then (1 : ℝ) else 0) = 0
    rw [if_neg]
    intro hx
    rw [abs_lt] at hx
    rcases h with h | h
    · exact absurd hx.1 (not_lt.2 h)
    · exact absurd hx.2 (not_lt.2 h)
  · norm_num [exConf]
  · intro he
    have : (0 : ℝ) ∈ rgrid (exConf (20, false)).par.rmin (exConf (20, false)).par.rmax (exConf (20, false)).par.dr := by
      rw [(rgrid_exact _ _ _ (by norm_num [exConf])).1]
      exact ⟨0, by norm_num [exConf], by norm_num [exConf], by norm_num [exConf]⟩
    rw [he] at this
    simp at this
  · intro x
    rw [h1, given_fits (by norm_num [exConf])]
    have he : endStep (exConf (20, false)) = 2100 := by
      unfold endStep exConf
      norm_num
    unfold qStep qPoints
    rw [he]
    have : Nat.clog 2 (2100 : ℤ).toNat = 12 := by decide
    rw [this]
    show _ < Real.pi / (_ * (1 / 100))
    rw [lt_div_iff₀ (by norm_num)]
    norm_num
    linarith
  · show _ < Real.pi / (1 / 100) - _
    norm_num
    linarith
  · intro x y ops
    refine ⟨?_, ?_⟩
    · show Proper (Quiet exConf k) k _ [.eval x, .configure exLess false true, .eval x, .configure (fun _ => (20, false)) true true, .eval y]
      refine proper_of (by simp) (proper_of ?_ (proper_of (by simp) (proper_of (by simp) (proper_of (by simp) proper_nil))))
      intro g r hg
      injection hg with hg1
      subst hg1
      exact exLess_quiet k _ h3 _
    · simp [ops, calls, taintAfter, taint, POp.op]

end Verif.PDFHist
