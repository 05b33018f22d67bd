import Verif.Model.DebyeOutput
import Verif.Props.DebyeHistory
import Verif.Props.DebyePDF
/-! C89: G(r) of a DebyePDFCalculator after any history of evaluations, serial and parallel. -/
set_option linter.unusedSectionVars false
namespace Verif.DebyeHist
open Verif.Eval Verif.Diff Verif.KindDiff Verif.History Verif.Debye Verif.Setters Verif.R3 Verif.Lattice Verif.Geo
open Verif.PDFHist (POp sitesOf)
open Verif.PDFGrid (rgrid)
open scoped BigOperators

/-! ### Specification -/

/-- The number of Q points: those below Qmax. -/
noncomputable def qCount (c : DCfg) : ℕ := ⌈c.d.q.qmax / c.d.q.qstep⌉.toNat

/-- F(Q) of the structure (C85): the Debye sum over the pairs in range, per atom and squared average factor; 0 where the average factor is 0. -/
noncomputable def debyeF (c : DCfg) (x : RStru) (q : ℝ) : ℝ :=
  open Classical in
  if meanFactor c.lookup (sitesOf x) q = 0 then 0
  else struSum (geom x) c.d.rcalclo c.d.rcalchi (siteFactor c.lookup (sitesOf x) q) (c.W x) (c.M x) q /
    (atomCount (sitesOf x) * meanFactor c.lookup (sitesOf x) q ^ 2)

/-- The error bound of F(Q): precision times number of bonds in the same units. -/
noncomputable def debyeErr (c : DCfg) (x : RStru) (q : ℝ) : ℝ :=
  open Classical in
  if meanFactor c.lookup (sitesOf x) q = 0 then 0
  else c.d.q.prec * (bondCount (geom x) c.d.rcalclo c.d.rcalchi (c.M x) : ℝ) / (atomCount (sitesOf x) * meanFactor c.lookup (sitesOf x) q ^ 2)

/-- The PDF: sine transform of F(Q) from `qmin` to Qmax, sampled at steps of `qstep`. -/
noncomputable def debyeG (c : DCfg) (x : RStru) (qmin r : ℝ) : ℝ :=
  2 / Real.pi * c.d.q.qstep * ∑ m ∈ Finset.range (qCount c),
    if qmin - 1 / 2 ^ 26 ≤ m * c.d.q.qstep then debyeF c x (m * c.d.q.qstep) * Real.sin (m * c.d.q.qstep * r) else 0

/-- The error bound of the PDF. -/
noncomputable def debyeGErr (c : DCfg) (x : RStru) (qmin : ℝ) : ℝ :=
  2 / Real.pi * c.d.q.qstep * ∑ m ∈ Finset.range (qCount c),
    if qmin - 1 / 2 ^ 26 ≤ m * c.d.q.qstep then debyeErr c x (m * c.d.q.qstep) else 0

/-- Linear interpolation of `g` at `r` between neighbouring multiples of `δ`. -/
noncomputable def between (g : ℝ → ℝ) (δ r : ℝ) : ℝ := (1 - Int.fract (r / δ)) * g (⌊r / δ⌋ * δ) + Int.fract (r / δ) * g ((⌊r / δ⌋ + 1) * δ)

/-- The array `z` over the r grid is, within the error bound, the PDF interpolated at some spacing not above the r step, times `w` at r. -/
def IsPDF (c : DCfg) (x : RStru) (qmin : ℝ) (w : ℝ → ℝ) (z : Option (List ℝ)) : Prop :=
  ∃ δ y, 0 < δ ∧ δ ≤ c.d.rstep ∧ z = some y ∧ y.length = (rgrid c.d.rmin c.d.rmax c.d.rstep).length ∧
    ∀ (m : ℕ) (r : ℝ), (rgrid c.d.rmin c.d.rmax c.d.rstep)[m]? = some r →
      ∃ v, y[m]? = some v ∧ |v - between (debyeG c x qmin) δ r * w r| ≤ debyeGErr c x qmin * |w r|

variable {C S : Type}

/-- The calculated range of `cf` extends at least one r step beyond `rmax`. -/
def Extends (cf : DCfg) (tails : ℝ → ℝ → ℝ) : Prop := cf.d.rstep ≤ min cf.d.maxext (cf.d.ripples + tails cf.d.rmin cf.d.rmax)

/-! ### Proof -/

/-- The sine transforms of two arrays. -/
theorem sine_error (c : DCfg) (x : RStru) (qmin : ℝ) (F : List ℝ) (hq : 0 < c.d.q.qstep) (hlen : F.length = qCount c)
    (hF : ∀ m < F.length, |F.getD m 0 - debyeF c x (m * c.d.q.qstep)| ≤ debyeErr c x (m * c.d.q.qstep)) (r : ℝ) :
    |sinePDF qmin c.d.q.qstep F r - debyeG c x qmin r| ≤ debyeGErr c x qmin := by
  have hpi := Real.pi_pos
  unfold sinePDF debyeG debyeGErr
  rw [← mul_sub, abs_mul, abs_of_nonneg (by positivity : 0 ≤ 2 / Real.pi * c.d.q.qstep), hlen, ← Finset.sum_sub_distrib]
  refine mul_le_mul_of_nonneg_left ?_ (by positivity)
  refine (Finset.abs_sum_le_sum_abs _ _).trans (Finset.sum_le_sum fun m hm => ?_)
  rw [Finset.mem_range, ← hlen] at hm
  unfold Debye.cut
  by_cases hc : qmin - 1 / 2 ^ 26 ≤ (m : ℝ) * c.d.q.qstep
  · rw [if_pos hc, if_pos hc, if_pos hc, ← sub_mul, abs_mul]
    calc _ ≤ |F.getD m 0 - debyeF c x (m * c.d.q.qstep)| * 1 := mul_le_mul_of_nonneg_left (Real.abs_sin_le_one _) (abs_nonneg _)
      _ ≤ _ := by rw [mul_one]; exact hF m hm
  · rw [if_neg hc, if_neg hc, if_neg hc]
    simp

theorem between_error (g h : ℝ → ℝ) (e δ r : ℝ) (hgh : ∀ r, |g r - h r| ≤ e) : |between g δ r - between h δ r| ≤ e := by
  unfold between
  have f0 := Int.fract_nonneg (r / δ)
  have f1 := (Int.fract_lt_one (r / δ)).le
  generalize Int.fract (r / δ) = t at f0 f1
  have a := hgh (⌊r / δ⌋ * δ)
  have b := hgh ((⌊r / δ⌋ + 1) * δ)
  generalize g (⌊r / δ⌋ * δ) = ga at a ⊢
  generalize h (⌊r / δ⌋ * δ) = ha at a ⊢
  generalize g ((⌊r / δ⌋ + 1) * δ) = gb at b ⊢
  generalize h ((⌊r / δ⌋ + 1) * δ) = hb at b ⊢
  rw [abs_le] at a b ⊢
  constructor <;> nlinarith

/-- Data for the output functions that agree with the structure. -/
theorem pdf_of_F (cf : DCfg) (x : RStru) (tails : ℝ → ℝ → ℝ) (ht : ∀ a b, 0 ≤ tails a b) (hg : cf.d.Good)
    (hfix : dstep tails cf.d .reset = .ok cf.d) (hx : Extends cf tails) (qmin : ℝ) (h0 : 0 ≤ qmin) (F : List ℝ) (hlen : F.length = qCount cf)
    (hF : ∀ m < F.length, |F.getD m 0 - debyeF cf x (m * cf.d.q.qstep)| ≤ debyeErr cf x (m * cf.d.q.qstep)) (w : ℝ → ℝ) (op : ℝ → ℝ → ℝ)
    (hop : ∀ r y, op r y = y * w r) :
    IsPDF cf x qmin w ((getPDFAtQmin qmin cf.d.q.qstep cf.d.rmin cf.d.rmax cf.d.rstep F).map fun g => List.zipWith op (gridOf cf.d) g) := by
  have hq0 : 0 < cf.d.q.qstep := lt_trans (by positivity) hg.qstep
  obtain ⟨δ, d1, d2, d3⟩ := debye_pdf tails ht cf.d cf.d hg hfix hx qmin h0 F
  have hgrid : gridOf cf.d = rgrid cf.d.rmin cf.d.rmax cf.d.rstep := rfl
  refine ⟨δ, _, d1, d2, by rw [d3]; rfl, ?_, fun m r hm => ?_⟩
  · rw [hgrid, List.length_zipWith, List.length_map, min_self]
  · rw [hgrid, List.getElem?_zipWith, hm, List.getElem?_map, hm]
    refine ⟨_, rfl, ?_⟩
    rw [hop, ← sub_mul, abs_mul]
    refine mul_le_mul_of_nonneg_right ?_ (abs_nonneg _)
    exact between_error _ _ _ δ r (sine_error cf x qmin F hq0 hlen hF)

/-- The clauses of C87 in terms of `debyeF`. -/
theorem F_error (c : DCfg) (x : RStru) (F : List ℝ)
    (h : ∀ m < F.length,
      let q := (m : ℝ) * c.d.q.qstep
      let n := atomCount (sitesOf x) * meanFactor c.lookup (sitesOf x) q ^ 2
      ∃ y, F[m]? = some y ∧ (meanFactor c.lookup (sitesOf x) q = 0 → y = 0) ∧ (meanFactor c.lookup (sitesOf x) q ≠ 0 →
        |y - struSum (geom x) c.d.rcalclo c.d.rcalchi (siteFactor c.lookup (sitesOf x) q) (c.W x) (c.M x) q / n| ≤
          c.d.q.prec * (bondCount (geom x) c.d.rcalclo c.d.rcalchi (c.M x) : ℝ) / n)) :
    ∀ m < F.length, |F.getD m 0 - debyeF c x (m * c.d.q.qstep)| ≤ debyeErr c x (m * c.d.q.qstep) := by
  intro m hm
  obtain ⟨y, hy, h0, h1⟩ := h m hm
  rw [List.getD_eq_getElem?_getD, hy, Option.getD_some]
  unfold debyeF debyeErr
  by_cases hz : meanFactor c.lookup (sitesOf x) ((m : ℝ) * c.d.q.qstep) = 0
  · rw [if_pos hz, if_pos hz, h0 hz]
    simp
  · rw [if_neg hz, if_neg hz]
    exact h1 hz

/-- **C89** (partial). After any history of evaluations (full or fast, any evaluator), configuration and `setStructure` calls, `eval` of a structure
leaves a PDF that is the sine transform of the Debye sum of that structure, for any lower Q limit and envelopes, and an RDF which is that with `qmin = 0` times
r.  Missing: as for C87, and ranges that do not extend by a step beyond rmax (C58). -/
theorem G_history_partial (s : Sorter) (hs : SortSpec s) (conf : C → DCfg) (stru : S → RStru) (tails : C → S → ℝ → ℝ → ℝ) (k : Cls C S)
    (hk : IsDebyeCalculator s conf stru tails k) (hr : Regular conf stru tails k)
    (c : C) (e : S) (ops : List (POp C S)) (x : S)
    (ht : taintRunF conf k (dcInit k c e 0 1) (ops ++ [.eval x]) = false) :
    let r := dcEval k (dcRun k (dcInit k c e 0 1) ops) x
    let cf := conf r.h.cfg
    let pars := fun c => (conf c).d
    (∀ t (q q' : ℝ), 0 ≤ q → q ≤ q' → |cf.lookup t q'| ≤ |cf.lookup t q|) → 1 / 2 ^ 26 < atomCount (sitesOf (stru x)) → 0 ≤ cf.d.q.prec →
    Extends cf (tails r.h.cfg x) →
    (∀ qmin env, 0 ≤ qmin → IsPDF cf (stru x) qmin env (getPDF k pars r qmin env)) ∧
      IsPDF cf (stru x) 0 (fun _ => 1) (getRDFperR k pars r) ∧ IsPDF cf (stru x) 0 (fun r => r) (getRDF k pars r) := by
  intro r cf pars hdec hocc hprec hx
  obtain ⟨F, hF, hlen, hv⟩ := F_history_partial s hs conf stru tails k hk hr c e ops x ht hdec hocc hprec
  have hfix := (eval_steady hk hr (dcRun k (dcInit k c e 0 1) ops) x).1
  have hFe := F_error cf (stru x) F hv
  have hF' : getF k r = some F := hF
  have key := fun qmin h0 w op hop => pdf_of_F cf (stru x) (tails r.h.cfg x) (hr.tls r.h.cfg x) (hr.good r.h.cfg) hfix hx qmin h0 F hlen hFe w op hop
  have hp : ∀ qmin, pdfAtQmin k pars r qmin = getPDFAtQmin qmin cf.d.q.qstep cf.d.rmin cf.d.rmax cf.d.rstep F := by
    intro qmin
    unfold pdfAtQmin
    rw [hF']
    rfl
  refine ⟨fun qmin env h0 => ?_, ?_, ?_⟩
  · unfold getPDF
    rw [hp]
    exact key qmin h0 env _ fun _ _ => rfl
  · unfold getRDFperR
    rw [hp]
    obtain ⟨δ, y, d1, d2, d3, d4, d5⟩ := key 0 (le_refl _) (fun _ => 1) (fun _ y => y) (fun _ y => (mul_one y).symm)
    obtain ⟨z, hz, hzy⟩ := Option.map_eq_some_iff.1 d3
    obtain ⟨δ', -, -, hz'⟩ := debye_pdf (tails r.h.cfg x) (hr.tls r.h.cfg x) cf.d cf.d (hr.good r.h.cfg) hfix hx 0 (le_refl _) F
    have hzl : z.length = (gridOf cf.d).length := by
      have := hz.symm.trans hz'
      rw [Option.some.inj this, List.length_map]
      rfl
    refine ⟨δ, y, d1, d2, ?_, d4, d5⟩
    rw [hz, ← hzy]
    congr 1
    refine List.ext_getElem (by rw [List.length_zipWith, hzl, min_self]) fun i h1 h2 => ?_
    rw [List.getElem_zipWith]
  · unfold getRDF getRDFperR
    rw [hp]
    exact key 0 (le_refl _) (fun r => r) _ fun r y => mul_comm r y

/-- **C89** (partial), parallel. A calculator that collects the values of jobs 0 to n-1, which went through the same history, in any order has the PDF and the
RDF of a new calculator, exactly. -/
theorem G_parallel_partial (s : Sorter) (hs : SortSpec s) (conf : C → DCfg) (stru : S → RStru) (tails : C → S → ℝ → ℝ → ℝ) (k : Cls C S)
    (hk : IsDebyeCalculator s conf stru tails k) (hr : Regular conf stru tails k) (jobs : ℕ) (hjobs : 1 ≤ jobs)
    (c : C) (e e' : S) (ops : List (POp C S)) (x : S)
    (ht : taintRunF conf k (dcInit k c e 0 jobs) (ops ++ [.eval x]) = false) (parts : List (List ℝ))
    (hp : parts.Perm ((List.range jobs).map fun j : ℕ => (dcEval k (dcRun k (dcInit k c e j jobs) ops) x).d.value)) (m0 : DC C S)
    (hm : m0.h.cfg = (dcEval k (dcRun k (dcInit k c e 0 jobs) ops) x).h.cfg) (d : C → D) :
    let f := dcEval k (dcInit k m0.h.cfg e' 0 1) x
    ∃ r, mergeParts k m0 x jobs parts = some r ∧ r.h.cfg = m0.h.cfg ∧ f.h.cfg = m0.h.cfg ∧ (∀ qmin env, getPDF k d r qmin env = getPDF k d f qmin env) ∧
      getRDFperR k d r = getRDFperR k d f ∧ getRDF k d r = getRDF k d f := by
  intro f
  obtain ⟨r, r1, r2, -, r4⟩ := F_parallel_partial s hs conf stru tails k hk hr jobs hjobs c e e' ops x ht parts hp m0 hm
  have hst := (eval_steady hk hr (dcRun k (dcInit k c e 0 jobs) ops) x).2
  rw [← hm] at hst
  have hcf : f.h.cfg = m0.h.cfg := by
    show (evalSt k.control (dcInit k m0.h.cfg e' 0 1).h x).cfg = _
    rw [evalSt_eq]
    show (optFinal k.control x (dcInit k m0.h.cfg e' 0 1).h).cfg = _
    have hf : fastChoice k.control (dcInit k m0.h.cfg e' 0 1).h x = none := rfl
    unfold optFinal
    rw [hf]
    have hb := basicFinal_cfg k.control 0 1 x (dcInit k m0.h.cfg e' 0 1).h
    refine hb.trans ?_
    show (k.custom x m0.h.cfg).1 = _
    rw [hst]
  have hq : ∀ qmin, pdfAtQmin k d r qmin = pdfAtQmin k d f qmin := by
    intro qmin
    unfold pdfAtQmin
    rw [r4, r2, hcf]
  refine ⟨r, r1, r2, hcf, fun qmin env => ?_, hq 0, ?_⟩
  · unfold getPDF
    rw [hq, r2, hcf]
  · unfold getRDF getRDFperR
    rw [hq, r2, hcf]

/-! ### The hypotheses can be met -/

/-- The last conditions for the example of C87 (where the extent of the peaks is the number of atoms): constant factors, some atoms, precision and extension as usual. -/
example (d : {d : D // ExRange d}) (hm : 1 ≤ d.1.maxext) (hp : d.1.q.prec = 1 / 1000000) (x : RStru) (hx : 1 ≤ x.atoms.length) :
    (∀ t (q q' : ℝ), 0 ≤ q → q ≤ q' → |(exConf d).lookup t q'| ≤ |(exConf d).lookup t q|) ∧ 0 ≤ (exConf d).d.q.prec ∧
      Extends (exConf d) (fun _ _ => (x.atoms.length : ℝ)) := by
  refine ⟨fun _ _ _ _ _ => le_refl _, ?_, ?_⟩
  · show 0 ≤ d.1.q.prec
    rw [hp]
    norm_num
  · have h1 : (1 : ℝ) ≤ (x.atoms.length : ℝ) := by exact_mod_cast hx
    have h2 := ripples_nonneg d.1
    have h3 := d.2.rstep
    refine le_min (h3.trans hm) ?_
    show d.1.rstep ≤ d.1.ripples + (x.atoms.length : ℝ)
    linarith

end Verif.DebyeHist
