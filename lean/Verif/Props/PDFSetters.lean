import Verif.Props.PDFHistory
import Verif.Props.Setters
/-! C86: the setters of PDFCalculator (C45) make only the changes without a click that the theorems on histories allow. -/
namespace Verif.PDFHist
open Verif.Eval Verif.Diff Verif.KindDiff Verif.History Verif.PDFGrid Verif.PDFCache Verif.R3 Verif.Lattice Verif.Geo

variable {C S : Type}

/-- The configuration `c` has the numeric parameters `p` of the calculator (C45) and the rest (profile, scattering factors, widths and masks, cached
structure data) from `d`. -/
structure HasPars (conf : C → PCfg) (k : Cls C S) (p : Setters.P) (d c : C) : Prop where
  conf : conf c = { conf d with par := ⟨p.rmin, p.rmax, p.rstep, p.maxext⟩, ripples := p.ripples }
  cache : ∀ x, k.cache c x = k.cache d x

/-- **C86**. An accepted setter call that does not click the ticker needs no click, as long as the Qmax before it is above the tolerance 2^-26. -/
theorem setter_quiet (conf : C → PCfg) (k : Cls C S) (p p' : Setters.P) (op : Setters.POp) (h : Setters.pstep p op = .ok p')
    (hclick : p'.clicks = p.clicks) (hq : 1 / 2 ^ 26 < Fft.getQmax p.qmax p.rstep) (d c c' : C) (hc : HasPars conf k p d c)
    (hc' : HasPars conf k p' d c') : Quiet conf k c c' := by
  obtain ⟨e1, e2, e3, e4, e5⟩ := (Setters.p_noclick p p' op h).2 hclick
  obtain ⟨-, hr⟩ := Setters.ripples_mono p p' e3 e5 hq
  refine ⟨?_, ?_, fun x => by rw [hc'.cache, hc.cache]⟩
  · rw [hc'.conf, hc.conf, e1, e2, e3, e4]
  · rw [hc'.conf, hc.conf]
    exact hr

/-- A configuration with ripples from `Qmax`. -/
noncomputable def exPars (q : ℝ) : PCfg :=
  ⟨⟨0, 10, 1 / 100, 10⟩, (⟨0, q, 0, 10, 1 / 100, 10, 0⟩ : Setters.P).ripples, boxProf, fun _ => 1, fun _ _ _ _ => 1 / 10, fun _ _ _ _ => true⟩

/-- The hypotheses hold for the change of Qmax from 20 to 25. -/
example (s : Sorter) (stru : S → RStru) : ∃ k : Cls ℝ S, IsPDFCalculator s exPars stru k ∧ Quiet exPars k 20 25 := by
  obtain ⟨k, hk, -, -, h3⟩ := calculator_exists s exPars stru (fun _ _ => 1 / 10) (fun _ => false)
  have hpi := Real.pi_gt_three
  refine ⟨k, hk, setter_quiet exPars k ⟨0, 20, 0, 10, 1 / 100, 10, 0⟩ ⟨0, 25, 0, 10, 1 / 100, 10, 0⟩ (.setQmax 25) ?_ rfl ?_ 20 20 25
    ⟨rfl, fun _ => rfl⟩ ⟨rfl, fun x => by rw [h3, h3]; rfl⟩⟩
  · have hn : Setters.throwsNegative 25 = false := by
      unfold Setters.throwsNegative
      rw [decide_eq_false]
      norm_num
    simp only [Setters.pstep, hn]
    rw [if_neg (by simp), if_pos (by norm_num), if_neg (by norm_num)]
  · unfold Fft.getQmax
    show (1 : ℝ) / 2 ^ 26 < min 20 (Real.pi / (1 / 100))
    rw [lt_min_iff]
    constructor
    · norm_num
    · rw [div_div_eq_mul_div, lt_div_iff₀ (by norm_num)]
      norm_num
      linarith

end Verif.PDFHist
