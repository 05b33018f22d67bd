import Verif.Props.PDFModels
/-! C93: what the results of a PDFCalculator are when settings have been changed since the evaluation. -/
set_option linter.unusedSectionVars false
namespace Verif.PDFHist
open Verif.Eval Verif.Diff Verif.KindDiff Verif.History Verif.PDFGrid Verif.PDFCache Verif.R3 Verif.Lattice Verif.Geo
open scoped BigOperators

/-! ### Specification -/

variable {C S : Type}

/-- Calls that change settings only: no evaluation, no new structure, no other evaluator. -/
def Configures (ops : List (POp C S)) : Prop := ∀ o ∈ ops, ∃ f clicks r, o = POp.configure f clicks r

/-- The same, with changes of the baseline. -/
def Settings (ops : List (OOp C S)) : Prop := ∀ o ∈ ops, (∃ f clicks r, o = OOp.call (POp.configure f clicks r)) ∨ ∃ b, o = OOp.setBaseline b

/-- The limits of the range `p` are in order and within the extended range of the configuration `c`, as numbers of steps. -/
def Inside (c : PCfg) (p : Par ℝ) : Prop :=
  firstStep c ≤ ⌈(p.rmin - 1 / 2 ^ 26) / p.dr⌉ ∧ ⌈(p.rmin - 1 / 2 ^ 26) / p.dr⌉ ≤ ⌈p.rmax / p.dr⌉ ∧ ⌈p.rmax / p.dr⌉ ≤ endStep c

/-- The baseline that is used: as at the evaluation, or one set since, with the slope that it has. -/
noncomputable def baseSince (f : ℝ → ℝ) (ops : List (OOp C S)) : ℝ → ℝ :=
  ops.foldl (fun f o => match o with | .call _ => f | .setBaseline b => b.fn) f

/-- As `Output` of C88, with G(r) on the grid of `p`. -/
structure OutputOn (c : PCfg) (p : Par ℝ) (qmin qmax : ℝ) (g : ℤ → ℝ) (atZero : Prop) (G : (ℝ → ℝ) → Option (List ℝ)) (F : Option (List ℝ)) : Prop where
  pdf : qmax < Real.pi / c.par.dr - 1 / 2 ^ 26 ∨ Real.pi / c.par.dr ≤ qmax → Inside c p → ∀ env : ℝ → ℝ, ∃ z, G env = some z ∧
    z.length = (rgrid p.rmin p.rmax p.dr).length ∧
    ∀ (m : ℕ) (n : ℤ), (rgrid p.rmin p.rmax p.dr)[m]? = some ((n : ℝ) * p.dr) → (n = 0 → atZero) →
      z[m]? = some (fromWindow c qmin qmax (transform c g) ((n : ℝ) * p.dr) * env ((n : ℝ) * p.dr))
  outside : ¬ Inside c p → ∀ env : ℝ → ℝ, G env = none
  f : ∃ z, F = some z ∧ (∀ i : ℕ, i < z.length ↔ (i : ℝ) * qStep c < min qmax (Real.pi / c.par.dr)) ∧
    ∀ i : ℕ, i < z.length → z[i]? = some (transform c g (i * qStep c))

/-! ### Proof -/

/-- Settings leave the results of the evaluation as they are, unless the structure is the initial one. -/
theorem configures_keep (k : Cls C S) (later : List (POp C S)) (hl : Configures later) : ∀ s : PC C S, k.isEmpty s.h.cur = false →
    (pcRun k s later).d = s.d ∧ (pcRun k s later).h.cur = s.h.cur := by
  induction later with
  | nil => intro s _; exact ⟨rfl, rfl⟩
  | cons o l ih =>
    intro s hs
    obtain ⟨f, cl, r, rfl⟩ := hl o List.mem_cons_self
    have hd : (pcStep k s (.configure f cl r)).d = s.d := by
      show (if (r && k.isEmpty s.h.cur) = true then _ else s.d) = s.d
      rw [hs, Bool.and_false, if_neg (by decide)]
    have hc : (pcStep k s (.configure f cl r)).h.cur = s.h.cur := by cases cl <;> rfl
    obtain ⟨h1, h2⟩ := ih (fun o ho => hl o (List.mem_cons_of_mem _ ho)) (pcStep k s (.configure f cl r)) (by rw [hc]; exact hs)
    exact ⟨h1.trans hd, h2.trans hc⟩

theorem calls_configures {later : List (OOp C S)} (hl : Settings later) : Configures (calls later) := by
  intro o ho
  unfold calls at ho
  obtain ⟨q, hq, e⟩ := List.mem_filterMap.1 ho
  rcases hl q hq with ⟨f, cl, r, rfl⟩ | ⟨b, rfl⟩
  · exact ⟨f, cl, r, (Option.some.inj e).symm⟩
  · simp at e

theorem settings_base (k : Cls C S) (density : S → ℝ) (later : List (OOp C S)) (hl : Settings later) : ∀ s : OC C S, k.isEmpty s.pc.h.cur = false →
    (ocRun k density s later).base.fn = baseSince s.base.fn later := by
  induction later with
  | nil => intro s _; rfl
  | cons o l ih =>
    intro s hs
    have ih' := ih fun o ho => hl o (List.mem_cons_of_mem _ ho)
    rcases hl o List.mem_cons_self with ⟨f, cl, r, rfl⟩ | ⟨b, rfl⟩
    · have hb : (ocStep k density s (.call (.configure f cl r))).base = s.base := by
        show (if (r && k.isEmpty s.pc.h.cur) = true then _ else s.base) = s.base
        rw [hs, Bool.and_false, if_neg (by decide)]
      have hc : (ocStep k density s (.call (.configure f cl r))).pc.h.cur = s.pc.h.cur := by cases cl <;> rfl
      refine (ih' (ocStep k density s (.call (.configure f cl r))) (by rw [hc]; exact hs)).trans ?_
      rw [hb]
      rfl
    · exact ih' (ocStep k density s (.setBaseline b)) hs

/-- Cutting an array over the steps `l.emin` to `l.emax` to the range of `p`: exactly when that is inside. -/
theorem cut_inside {α : Type} (p : Par ℝ) (hd : eps < p.dr) (l : Limits) (y : List α) (hy : (y.length : ℤ) = l.emax - l.emin) (hpos : l.emin < l.emax) :
    let a := rminSteps p.rmin p.dr
    let b := rmaxSteps p.rmax p.dr
    (l.emin ≤ a ∧ a ≤ b ∧ b ≤ l.emax → ∃ z, cutRipplePoints p l y = some z ∧ z.length = (rgrid p.rmin p.rmax p.dr).length ∧
      ∀ (m : ℕ) (n : ℤ), (rgrid p.rmin p.rmax p.dr)[m]? = some ((n : ℝ) * p.dr) →
        l.emin ≤ n ∧ n < l.emax ∧ z[m]? = y[(n - l.emin).toNat]?) ∧
    (¬ (l.emin ≤ a ∧ a ≤ b ∧ b ≤ l.emax) → cutRipplePoints p l y = none) := by
  intro a b
  have hd0 : 0 < p.dr := lt_trans eps_pos hd
  have hg : (rgrid p.rmin p.rmax p.dr).length = (b - a).toNat := by
    unfold rgrid; rw [List.length_map, length_intRange]
  have hne : ¬ y.isEmpty = true := by
    intro he
    have : y.length = 0 := by simpa using he
    omega
  unfold cutRipplePoints
  rw [if_neg hne]
  change (_ → ∃ z, (eraseEnd (l.emax - b) y).bind (eraseBegin (a - l.emin)) = some z ∧ _) ∧
    (_ → (eraseEnd (l.emax - b) y).bind (eraseBegin (a - l.emin)) = none)
  unfold eraseEnd
  constructor
  · rintro ⟨h1, h2, h3⟩
    have hp : 0 ≤ l.emax - b ∧ l.emax - b ≤ y.length := by omega
    rw [if_pos hp, Option.bind_some]
    unfold eraseBegin
    have hp2 : 0 ≤ a - l.emin ∧ a - l.emin ≤ (y.take (y.length - (l.emax - b).toNat)).length := by
      rw [List.length_take]
      omega
    rw [if_pos hp2]
    refine ⟨_, rfl, ?_, fun m n hm => ?_⟩
    · rw [List.length_drop, List.length_take, hg]
      omega
    · have hmlt := (List.getElem?_eq_some_iff.1 hm).1
      have hn : n = a + m := by
        unfold rgrid at hm
        obtain ⟨hb, hm⟩ := List.getElem?_eq_some_iff.1 hm
        rw [List.getElem_map, getElem_intRange] at hm
        have := mul_right_cancel₀ hd0.ne' hm
        exact_mod_cast this.symm
      rw [hg] at hmlt
      refine ⟨by omega, by omega, ?_⟩
      rw [List.getElem?_drop, List.getElem?_take, if_pos (by omega)]
      congr 1
      omega
  · intro h
    by_cases hp : 0 ≤ l.emax - b ∧ l.emax - b ≤ y.length
    · rw [if_pos hp, Option.bind_some]
      unfold eraseBegin
      rw [if_neg]
      rw [List.length_take]
      omega
    · rw [if_neg hp]
      rfl

theorem inside_iff {c : PCfg} {t : ℝ} (ok : PDFGrid.Ok c.par c.ripples t) (hne : rgrid c.par.rmin c.par.rmax c.par.dr ≠ []) (p : Par ℝ) (hd : eps < p.dr)
    (l : Limits) (hl : l = rlimits c.par c.ripples t) :
    Inside (c.given t) p ↔ l.emin ≤ rminSteps p.rmin p.dr ∧ rminSteps p.rmin p.dr ≤ rmaxSteps p.rmax p.dr ∧ rmaxSteps p.rmax p.dr ≤ l.emax := by
  obtain ⟨e1, e2⟩ := first_end ok hne
  rw [hl, e1, e2, rminSteps_ceil _ hd, rmaxSteps_ceil _ (lt_trans eps_pos hd)]
  rfl

theorem emin_lt {c : PCfg} {t : ℝ} (ok : PDFGrid.Ok c.par c.ripples t) (hne : rgrid c.par.rmin c.par.rmax c.par.dr ≠ []) :
    (rlimits c.par c.ripples t).emin < (rlimits c.par c.ripples t).emax := by
  obtain ⟨-, -, -, o4⟩ := limits_order c.par c.ripples t ok
  rcases o4 with ⟨o, -⟩ | ⟨o, o', o''⟩
  · exact absurd o hne
  · omega

theorem given_between {c : PCfg} {t : ℝ} (ok : PDFGrid.Ok c.par c.ripples t) : 0 ≤ (c.given t).ripples ∧ (c.given t).ripples ≤ c.ripples := by
  have h1 := ok.rip
  have h2 := ok.tls
  have h3 := ok.ext
  unfold PCfg.given
  dsimp only
  split
  · exact ⟨h1, le_refl _⟩
  · rename_i h
    have hs : 0 < c.ripples + t := by linarith
    refine ⟨mul_nonneg h1 (div_nonneg h3 hs.le), mul_le_of_le_one_right h1 ?_⟩
    rw [div_le_one hs]
    linarith

/-- An evaluation leaves the configuration as it is when it does not depend on the structure. -/
theorem evalSt_cfg {B G : Type} [AddCommGroup G] (K : History.Calc C S B G) (hc : ∀ x c, (K.custom x c).1 = c) (st : St C S G) (x : S) :
    (evalSt K st x).cfg = st.cfg := by
  have hb : ∀ st' : St C S G, (basicFinal K st.cpuindex st.ncpu x st').cfg = st'.cfg := fun st' => (basicFinal_cfg K _ _ x st').trans (hc _ _)
  have hmid : ∀ s0 d (st' : St C S G), (midFast K s0 x d st').cfg = st'.cfg := fun s0 d st' => (midFast_cfg K s0 x d st').trans (hc _ _)
  have ho : (optFinal K x st).cfg = st.cfg := by
    unfold optFinal
    split
    · exact hb st
    · split
      · exact (hb _).trans (hmid _ _ (setUsed .optimized st))
      · exact hmid _ _ (setUsed .optimized st)
  rw [evalSt_eq]
  cases st.evtype with
  | none => exact hb _
  | basic => exact hb _
  | optimized => exact ho
  | check =>
    dsimp only
    unfold checkFinal
    dsimp only
    split
    · exact ho
    · exact (hb _).trans ho

/-! ### Theorems -/

/-- The RDF array read with other parameters than those of the evaluation. -/
theorem stale_of_agrees {conf : C → PCfg} {stru : S → RStru} {k : Cls C S} {s : Sorter} (hk : IsPDFCalculator s conf stru k)
    (hr : Regular conf stru k) (d : Data) (c c' : C) (x : S) (v : ℤ → ℝ) (h : Agrees k (fun c n => Looked (conf c) n) d c x v)
    (hne : rgrid (conf c).par.rmin (conf c).par.rmax (conf c).par.dr ≠ []) :
    let p := (conf c').par
    let I := Inside ((conf c).given (k.tails c x)) p
    (I → ∃ z, (⟨k.par c', d.lim, d.value⟩ : PDFGrid.Calc ℝ).getRDF d.cache.rdfScale = some z ∧ z.length = (rgrid p.rmin p.rmax p.dr).length ∧
      ∀ (m : ℕ) (n : ℤ), (rgrid p.rmin p.rmax p.dr)[m]? = some ((n : ℝ) * p.dr) → Seen (conf c) n →
        Looked (conf c) n ∧ z[m]? = some (v n * d.cache.rdfScale)) ∧
    (¬ I → (⟨k.par c', d.lim, d.value⟩ : PDFGrid.Calc ℝ).getRDF d.cache.rdfScale = none) := by
  intro p I
  have ok := hr.ok c x
  have hl : d.lim = rlimits (conf c).par (conf c).ripples (k.tails c x) := by rw [h.lim]; unfold Cls.lim; rw [hk.par, hk.ripples]
  obtain ⟨y, hy, hyl, hyv⟩ := ext_spec (⟨(conf c).par, d.lim, d.value⟩ : PDFGrid.Calc ℝ) (conf c).ripples (k.tails c x) d.cache.rdfScale ok ⟨hl, h.len⟩
  have hlt := emin_lt ok hne
  rw [← hl] at hlt
  have hd : eps < p.dr := (hr.ok c' x).step
  obtain ⟨h1, h2⟩ := cut_inside p hd d.lim y hyl hlt
  have hI : I ↔ _ := inside_iff ok hne p hd d.lim hl
  have hget : (⟨k.par c', d.lim, d.value⟩ : PDFGrid.Calc ℝ).getRDF d.cache.rdfScale = cutRipplePoints p d.lim y := by
    unfold PDFGrid.Calc.getRDF
    rw [show (⟨k.par c', d.lim, d.value⟩ : PDFGrid.Calc ℝ).extendedRDF d.cache.rdfScale = some y from hy, Option.bind_some, hk.par]
  rw [hget]
  refine ⟨fun hin => ?_, fun hin => h2 fun hh => hin (hI.2 hh)⟩
  obtain ⟨z, z1, z2, z3⟩ := h1 (hI.1 hin)
  refine ⟨z, z1, z2, fun m n hm hn => ?_⟩
  obtain ⟨b1, b2, b3⟩ := z3 m n hm
  obtain ⟨e1, e2⟩ := first_end ok hne
  have hlook : Looked (conf c) n := ⟨given_extended ok hne (by rw [← e1, ← hl]; exact b1) (by rw [← e2, ← hl]; exact b2), hn⟩
  refine ⟨hlook, ?_⟩
  rw [b3, hyv n b1 b2]
  show some (at_ d.lim.clo d.value n * _) = _
  rw [h.val n hlook]

/-- **C93** (partial). After any history and an evaluation, change settings in any way without evaluating again.  If the range asked for is within
the extended range of the evaluation, `getRDF` gives on the new grid the RDF at the same numbers of steps of the evaluation: its structure, widths, profile,
factors and masks.  If it is not, `getRDF` accesses memory outside of its array. -/
theorem stale_rdf_partial (s : Sorter) (hs : SortSpec s) (conf : C → PCfg) (stru : S → RStru) (k : Cls C S) (hk : IsPDFCalculator s conf stru k)
    (hr : Regular conf stru k) (c : C) (e : S) (ops : List (POp C S)) (ha : Proper (Quiet conf k) k (pcInit k c e 0 1) ops)
    (ht : taintAfter k.control (pcInit k c e 0 1).h false (ops.map POp.op) = false) (x : S) (hx : k.isEmpty x = false)
    (later : List (POp C S)) (hl : Configures later) :
    let r := pcEval k (pcRun k (pcInit k c e 0 1) ops) x
    let cf := conf r.h.cfg
    let t := k.tails r.h.cfg x
    let r' := pcRun k r later
    let p := (conf r'.h.cfg).par
    rgrid cf.par.rmin cf.par.rmax cf.par.dr ≠ [] →
    (Inside (cf.given t) p → ∃ z, getRDF k r' = some z ∧ z.length = (rgrid p.rmin p.rmax p.dr).length ∧
      ∀ (m : ℕ) (n : ℤ), (rgrid p.rmin p.rmax p.dr)[m]? = some ((n : ℝ) * p.dr) → Seen cf n →
        z[m]? = some (struRDF cf (stru x) (counted cf t (drawn cf.prof cf.par.dr n)))) ∧
    (¬ Inside (cf.given t) p → getRDF k r' = none) := by
  intro r cf t r' p hne
  obtain ⟨hin, ho⟩ := in_calc hk hr
  obtain ⟨v, hv, hj⟩ := joint_history k _ hin ho 1 (le_refl _) (ghost_lawful hs hk hr).1 _ (quiet_law hs hk hr) c e ops ha ht x
  obtain ⟨-, hA⟩ := hj 0 Nat.one_pos
  rw [Finset.sum_range_one] at hv
  have hcur : r.h.cur = x := evalSt_cur k.control _ x
  obtain ⟨hd, -⟩ := configures_keep k later hl r (by rw [hcur]; exact hx)
  obtain ⟨h1, h2⟩ := stale_of_agrees hk hr r.d r.h.cfg r'.h.cfg x (v 0) hA hne
  have hget : getRDF k r' = (⟨k.par r'.h.cfg, r.d.lim, r.d.value⟩ : PDFGrid.Calc ℝ).getRDF r.d.cache.rdfScale := by
    unfold getRDF PC.out
    rw [hd]
  rw [hget]
  refine ⟨fun hI => ?_, h2⟩
  obtain ⟨z, z1, z2, z3⟩ := h1 hI
  refine ⟨z, z1, z2, fun m n hm hn => ?_⟩
  obtain ⟨hlook, hz⟩ := z3 m n hm hn
  rw [hz, hv]
  congr 1
  exact spec_at hs hk hr r.h.cfg x n hlook r.d.cache hA.cache

/-- G(r) before the envelopes and F(Q) depend on the step only. -/
theorem step_only (K : PDFGrid.Calc ℝ) (p : Par ℝ) (h : p.dr = K.par.dr) (qmin mqmax scale : ℝ) (base : ℝ → ℝ) :
    Fft.extendedG (K.setPar p) qmin mqmax scale base = Fft.extendedG K qmin mqmax scale base ∧
      Fft.getF (K.setPar p) mqmax scale base = Fft.getF K mqmax scale base ∧ (K.setPar p).extendedRgrid = K.extendedRgrid := by
  obtain ⟨⟨a, b, dr, m⟩, l, v⟩ := K
  obtain ⟨a', b', dr', m'⟩ := p
  obtain rfl : dr' = dr := h
  exact ⟨rfl, rfl, rfl⟩

/-- The FFT arrays of an evaluation exist for any Q window. -/
theorem extG_some {conf : C → PCfg} {stru : S → RStru} {k : Cls C S} {s : Sorter} (hk : IsPDFCalculator s conf stru k)
    (hr : Regular conf stru k) (d : Data) (c : C) (x : S) (v : ℤ → ℝ) (h : Agrees k (fun c n => Looked (conf c) n) d c x v)
    (hne : rgrid (conf c).par.rmin (conf c).par.rmax (conf c).par.dr ≠ []) (hres : 1 / 2 ^ 26 < qStep ((conf c).given (k.tails c x))) (base : ℝ → ℝ)
    (qmin mqmax : ℝ) (hq : Fft.QOk qmin mqmax) (G : List ℝ)
    (hG : Fft.extendedG ⟨k.par c, d.lim, d.value⟩ qmin mqmax d.cache.rdfScale base = some G) : (G.length : ℤ) = d.lim.emax - d.lim.emin := by
  have ok := hr.ok c x
  have hl : d.lim = rlimits (conf c).par (conf c).ripples (k.tails c x) := by rw [h.lim]; unfold Cls.lim; rw [hk.par, hk.ripples]
  obtain ⟨e1, e2⟩ := first_end ok hne
  rw [← hl] at e1 e2
  have hlt := emin_lt ok hne
  have hem : 0 ≤ d.lim.emin := by rw [e1]; exact le_max_left _ _
  rw [← hl] at hlt
  rw [hk.par] at hG
  have hf : Fresh (⟨(conf c).par, d.lim, d.value⟩ : PDFGrid.Calc ℝ) (conf c).ripples (k.tails c x) := ⟨hl, h.len⟩
  set K : PDFGrid.Calc ℝ := ⟨(conf c).par, d.lim, d.value⟩ with hK
  have hqs : Fft.getQstep K.lim.emax K.par.dr = qStep ((conf c).given (k.tails c x)) := by
    show Fft.getQstep d.lim.emax (conf c).par.dr = _
    rw [e2]
    unfold Fft.getQstep qStep
    rw [if_pos (by rw [← e2]; omega), pad_points]
    rfl
  have hres' : 1 / 2 ^ 26 < Fft.getQstep K.lim.emax K.par.dr := by rw [hqs]; exact hres
  rcases hsk : Fft.skipfft K qmin mqmax with _ | _
  · obtain ⟨y2, G2, u1, u2, u4, -⟩ := Fft.fourier_branch K _ _ qmin mqmax d.cache.rdfScale base ok hf hq hne hres' hsk
    obtain rfl : G2 = G := Option.some.inj (u2.symm.trans hG)
    exact u4
  · obtain ⟨y, hy, hyl, -⟩ := Fft.rdfperr_some K _ _ d.cache.rdfScale ok hf base
    unfold Fft.extendedG at hG
    rw [hy, Option.bind_some, if_pos hsk] at hG
    rw [← Option.some.inj hG, List.length_zipWith]
    have hxl : (K.extendedRgrid.length : ℤ) = K.lim.emax - K.lim.emin := by
      unfold Calc.extendedRgrid; rw [List.length_map, length_intRange]; omega
    have : (y.length : ℤ) = K.lim.emax - K.lim.emin := by exact_mod_cast hyl
    show _ = K.lim.emax - K.lim.emin
    omega

/-- **C93** (partial), G(r) and F(Q). The same for changes of settings and baseline that leave the step alone: F(Q) is that of the evaluation, G(r) on the new
grid is that of the evaluation if the range asked for is within the extended range; both for the Q range and envelopes, and G(r) with the baseline, of
the time of the call (a linear baseline set since has the slope that it was given).  If the range is not inside, `getPDF` accesses memory outside of its array. -/
theorem stale_pdf_partial (s : Sorter) (hs : SortSpec s) (conf : C → PCfg) (stru : S → RStru) (k : Cls C S) (hk : IsPDFCalculator s conf stru k)
    (hr : Regular conf stru k) (m : C → S → Mask.State) (hm : Masked conf stru k m) (c : C) (e : S)
    (b : Baseline) (ops : List (OOp C S)) (ha : Proper (Quiet conf k) k (pcInit k c e 0 1) (calls ops))
    (ht : taintAfter k.control (pcInit k c e 0 1).h false ((calls ops).map POp.op) = false) (x : S) (hx : k.isEmpty x = false)
    (hpos : 0 < atoms (sitesOf (stru x))) (later : List (OOp C S)) (hl : Settings later) (qmin qmax : ℝ) (hq : Fft.QOk qmin qmax) :
    let density := fun x => densityOf (geom (stru x)).mult (stru x)
    let r := ocEval k density (ocRun k density (ocInit k density c e b 0 1) ops) x
    let cf := conf r.pc.h.cfg
    let t := k.tails r.pc.h.cfg x
    let r' := ocRun k density r later
    let p := (conf r'.pc.h.cfg).par
    let base := baseSince (baseOf cf (stru x) (lastBase b ops)) later
    p.dr = cf.par.dr → rgrid cf.par.rmin cf.par.rmax cf.par.dr ≠ [] → 1 / 2 ^ 26 < qStep (cf.given t) →
    ∃ g : ℤ → ℝ, (∀ n, firstStep (cf.given t) ≤ n → n < endStep (cf.given t) → Seen cf n →
        g n = struRDF cf (stru x) (counted cf t (drawn cf.prof cf.par.dr n)) / ((n : ℝ) * cf.par.dr) + base ((n : ℝ) * cf.par.dr)) ∧
      OutputOn (cf.given t) p qmin qmax g (base 0 = 0) (getPDF k r' qmin qmax) (getF k r' qmax) := by
  intro density r cf t r' p base hstep hne hres
  obtain ⟨hin, ho⟩ := in_calc hk hr
  have hrun : (ocRun k density (ocInit k density c e b 0 1) ops).pc = pcRun k (pcInit k c e 0 1) (calls ops) := run_pc k density ops _
  have hpc : r.pc = pcEval k (pcRun k (pcInit k c e 0 1) (calls ops)) x := by
    rw [← hrun]
    rfl
  obtain ⟨v, hv, hj⟩ := joint_history k _ hin ho 1 (le_refl _) (ghost_lawful hs hk hr).1 _ (quiet_law hs hk hr) c e (calls ops) ha ht x
  obtain ⟨-, hA⟩ := hj 0 Nat.one_pos
  rw [Finset.sum_range_one] at hv
  rw [Nat.cast_zero, Nat.cast_one, ← hpc] at hA
  rw [Nat.cast_one, ← hpc] at hv
  have hcur : r.pc.h.cur = x := by
    rw [hpc]
    exact evalSt_cur k.control _ x
  have hbase : r.base.fn = baseOf cf (stru x) (lastBase b ops) := by
    have e1 : r.base = (ocRun k density (ocInit k density c e b 0 1) ops).base.update r.pc.d.cache (density r.pc.h.cur) := rfl
    rw [e1, hcur, hA.cache]
    refine update_fn hm r.pc.h.cfg x hpos _ _ ?_
    refine run_form k density ops (ocInit k density c e b 0 1) b ?_
    exact form_update _ _ b
  have hemp : k.isEmpty r.pc.h.cur = false := by rw [hcur]; exact hx
  have hbase' : r'.base.fn = base := by rw [settings_base k density later hl r hemp, hbase]
  obtain ⟨hd, -⟩ := configures_keep k (calls later) (calls_configures hl) r.pc hemp
  rw [← run_pc k density later r] at hd
  change r'.pc.d = r.pc.d at hd
  have ok := hr.ok r.pc.h.cfg x
  have hlim : r.pc.d.lim = rlimits cf.par cf.ripples t := by rw [hA.lim]; unfold Cls.lim; rw [hk.par, hk.ripples]
  set K : PDFGrid.Calc ℝ := ⟨k.par r.pc.h.cfg, r.pc.d.lim, r.pc.d.value⟩ with hK
  have hout : r'.pc.out k = K.setPar p := by
    unfold PC.out PDFGrid.Calc.setPar
    rw [hd, hk.par]
  have hKdr : p.dr = K.par.dr := by
    show _ = (k.par r.pc.h.cfg).dr
    rw [hk.par]
    exact hstep
  obtain ⟨s1, s2, s3⟩ := step_only K p hKdr qmin qmax r.pc.d.cache.rdfScale base
  have hlt := emin_lt ok hne
  rw [← hlim] at hlt
  have hdp : eps < p.dr := (hr.ok r'.pc.h.cfg x).step
  have hI := inside_iff ok hne p hdp r.pc.d.lim hlim
  have hget : ∀ env, getPDF k r' qmin qmax env = (Fft.extendedG K qmin qmax r.pc.d.cache.rdfScale base).bind fun G =>
      cutRipplePoints p r.pc.d.lim (List.zipWith (fun r y => y * env r) K.extendedRgrid G) := by
    intro env
    unfold getPDF Fft.getPDF
    rw [hout, hbase', hd, s1, s3]
    rfl
  have hxl : (K.extendedRgrid.length : ℤ) = r.pc.d.lim.emax - r.pc.d.lim.emin := by
    unfold Calc.extendedRgrid; rw [List.length_map, length_intRange]; have kl : K.lim = r.pc.d.lim := rfl; rw [kl]; omega
  obtain ⟨g, h1, h2, h3⟩ := ext_of_agrees hk hr r.pc.d r.pc.h.cfg x (v 0) hA hne hres base qmin qmax hq
  refine ⟨g, fun n hn1 hn1' hn2 => ?_, fun hcut hinside env => ?_, fun hout env => ?_, ?_⟩
  · rw [h1 n hn1 hn1' hn2, hv, spec_at hs hk hr r.pc.h.cfg x n ⟨given_extended ok hne hn1 hn1', hn2⟩ r.pc.d.cache hA.cache]
  · obtain ⟨G, hG, hGl, hGv⟩ := h2 hcut
    rw [hget, hG, Option.bind_some]
    obtain ⟨u1, -⟩ := cut_inside p hdp r.pc.d.lim (List.zipWith (fun r y => y * env r) K.extendedRgrid G)
      (by rw [List.length_zipWith]; omega) hlt
    obtain ⟨z, z1, z2, z3⟩ := u1 (hI.1 hinside)
    refine ⟨z, z1, z2, fun i n hi h0 => ?_⟩
    obtain ⟨b1, b2, b3⟩ := z3 i n hi
    have hgr : K.extendedRgrid[(n - r.pc.d.lim.emin).toNat]? = some ((n : ℝ) * p.dr) := by
      unfold Calc.extendedRgrid
      rw [List.getElem?_map, List.getElem?_eq_getElem (by rw [length_intRange]; show _ < (r.pc.d.lim.emax - r.pc.d.lim.emin).toNat; omega), getElem_intRange]
      have : K.lim.emin + ((n - r.pc.d.lim.emin).toNat : ℤ) = n := by show r.pc.d.lim.emin + _ = _; omega
      rw [this, hKdr]
      rfl
    have hGlt : (n - r.pc.d.lim.emin).toNat < G.length := by omega
    have hGn := hGv n b1 b2 h0
    rw [b3, List.getElem?_zipWith, hgr, List.getElem?_eq_getElem hGlt]
    rw [List.getD_eq_getElem _ _ hGlt] at hGn
    simp only
    rw [hGn, hstep]
  · rw [hget]
    rcases hG : Fft.extendedG K qmin qmax r.pc.d.cache.rdfScale base with _ | G
    · rfl
    · have hGl := extG_some hk hr r.pc.d r.pc.h.cfg x (v 0) hA hne hres base qmin qmax hq G hG
      rw [Option.bind_some]
      exact (cut_inside p hdp r.pc.d.lim (List.zipWith (fun r y => y * env r) K.extendedRgrid G)
        (by rw [List.length_zipWith]; omega) hlt).2 fun hh => hout (hI.2 hh)
  · have hgF : getF k r' qmax = Fft.getF K qmax r.pc.d.cache.rdfScale base := by
      unfold getF
      rw [hout, hbase', hd, s2]
    rw [hgF]
    exact h3

/-- **C93**. When the range of the evaluation was empty, `getRDF` stays empty for every range set since (and then has not one value per grid point). -/
theorem stale_empty (s : Sorter) (hs : SortSpec s) (conf : C → PCfg) (stru : S → RStru) (k : Cls C S) (hk : IsPDFCalculator s conf stru k)
    (hr : Regular conf stru k) (c : C) (e : S) (ops : List (POp C S)) (ha : Proper (Quiet conf k) k (pcInit k c e 0 1) ops)
    (ht : taintAfter k.control (pcInit k c e 0 1).h false (ops.map POp.op) = false) (x : S) (hx : k.isEmpty x = false)
    (later : List (POp C S)) (hl : Configures later) :
    let r := pcEval k (pcRun k (pcInit k c e 0 1) ops) x
    let p := (conf r.h.cfg).par
    rgrid p.rmin p.rmax p.dr = [] → getRDF k (pcRun k r later) = some [] := by
  intro r p hne
  obtain ⟨hin, ho⟩ := in_calc hk hr
  obtain ⟨v, -, hj⟩ := joint_history k _ hin ho 1 (le_refl _) (ghost_lawful hs hk hr).1 _ (quiet_law hs hk hr) c e ops ha ht x
  obtain ⟨-, hA⟩ := hj 0 Nat.one_pos
  change Agrees k _ r.d r.h.cfg x (v 0) at hA
  have hcur : r.h.cur = x := evalSt_cur k.control _ x
  obtain ⟨hd, -⟩ := configures_keep k later hl r (by rw [hcur]; exact hx)
  have ok := hr.ok r.h.cfg x
  have hl : r.d.lim = rlimits (conf r.h.cfg).par (conf r.h.cfg).ripples (k.tails r.h.cfg x) := by rw [hA.lim]; unfold Cls.lim; rw [hk.par, hk.ripples]
  obtain ⟨y, hy, hyl, -⟩ := ext_spec (⟨(conf r.h.cfg).par, r.d.lim, r.d.value⟩ : PDFGrid.Calc ℝ) _ _ r.d.cache.rdfScale ok ⟨hl, hA.len⟩
  have hy0 : y = [] := by
    obtain ⟨-, -, -, o4⟩ := limits_order (conf r.h.cfg).par (conf r.h.cfg).ripples (k.tails r.h.cfg x) ok
    have hyl' : (y.length : ℤ) = r.d.lim.emax - r.d.lim.emin := hyl
    have : r.d.lim.emax = r.d.lim.emin := by
      rcases o4 with ⟨-, o⟩ | ⟨o, o', o''⟩
      · rw [hl, o]
      · have hlen : (rgrid p.rmin p.rmax p.dr).length = (rmaxSteps p.rmax p.dr - rminSteps p.rmin p.dr).toNat := by
          unfold rgrid; rw [List.length_map, length_intRange]
        rw [hne] at hlen
        change rminSteps p.rmin p.dr < rmaxSteps p.rmax p.dr at o'
        rw [List.length_nil] at hlen
        omega
    exact List.eq_nil_of_length_eq_zero (by omega)
  unfold getRDF PC.out PDFGrid.Calc.getRDF
  rw [hd, show (⟨k.par (pcRun k r later).h.cfg, r.d.lim, r.d.value⟩ : PDFGrid.Calc ℝ).extendedRDF r.d.cache.rdfScale = some y from hy, Option.bind_some, hy0]
  rfl

/-- C93 defect: after `setRstep` without an evaluation `getRDF` gives the values of the old grid under the new one: with a peak at 1 and steps of 1/4 the
RDF is 0 at r = 2; read with steps of 1/2 it is that of r = 1. -/
theorem getRDF_after_setRstep_bug :
    let c := evaluated (⟨1, 3, 1 / 4, 10⟩ : Par ℚ) 0 (1 / 2) ⟨fun _ => -1 / 8, fun _ => 1 / 8, fun _ _ => 1⟩ [⟨1, 1 / 8, 1⟩]
    c.getRDF 1 = some [1, 0, 0, 0, 0, 0, 0, 0] ∧ (c.setPar ⟨2, 4, 1 / 2, 10⟩).getRDF 1 = some [1, 0, 0, 0] ∧
      rgrid (2 : ℚ) 4 (1 / 2) = [2, 5 / 2, 3, 7 / 2] := by
  decide +kernel


/-- **C93**. A range within the range of the evaluation is inside. -/
theorem inside_sub {c : PCfg} {t : ℝ} (ok : PDFGrid.Ok c.par c.ripples t) (p : Par ℝ) (hd : p.dr = c.par.dr) (h1 : c.par.rmin ≤ p.rmin) (h2 : p.rmin ≤ p.rmax)
    (h3 : p.rmax ≤ c.par.rmax) : Inside (c.given t) p := by
  have hs : (1 : ℝ) / 2 ^ 26 < c.par.dr := ok.step
  have hs0 : 0 < c.par.dr := lt_trans (by norm_num) hs
  obtain ⟨g1, -⟩ := given_between ok
  have hmin := ok.rmin
  unfold Inside firstStep endStep
  rw [hd]
  refine ⟨max_le ?_ ?_, ?_, ?_⟩
  · have : (-1 : ℝ) < (p.rmin - 1 / 2 ^ 26) / c.par.dr := by
      rw [lt_div_iff₀ hs0]
      linarith
    have h := Int.le_ceil ((p.rmin - 1 / 2 ^ 26) / c.par.dr)
    have h' : ((-1 : ℤ) : ℝ) < (⌈(p.rmin - 1 / 2 ^ 26) / c.par.dr⌉ : ℝ) := by
      push_cast
      linarith
    have := Int.cast_lt.1 h'
    omega
  · refine Int.ceil_le_ceil (div_le_div_of_nonneg_right ?_ hs0.le)
    show c.par.rmin - (c.given t).ripples - _ ≤ _
    linarith
  · refine Int.ceil_le_ceil (div_le_div_of_nonneg_right ?_ hs0.le)
    have : (0 : ℝ) ≤ 1 / 2 ^ 26 := by norm_num
    linarith
  · refine Int.ceil_le_ceil (div_le_div_of_nonneg_right ?_ hs0.le)
    show _ ≤ c.par.rmax + (c.given t).ripples
    linarith

/-- **C93**. A range that ends a step beyond the ripples is not. -/
theorem outside_beyond {c : PCfg} {t : ℝ} (ok : PDFGrid.Ok c.par c.ripples t) (p : Par ℝ) (hd : p.dr = c.par.dr)
    (h : c.par.rmax + c.ripples + c.par.dr ≤ p.rmax) : ¬ Inside (c.given t) p := by
  have hs0 : 0 < c.par.dr := lt_trans (by norm_num) (show (1 : ℝ) / 2 ^ 26 < c.par.dr from ok.step)
  obtain ⟨-, g2⟩ := given_between ok
  rintro ⟨-, -, h3⟩
  unfold endStep at h3
  rw [hd] at h3
  have h4 : (c.par.rmax + (c.given t).ripples) / c.par.dr + 1 ≤ p.rmax / c.par.dr := by
    rw [div_add_one hs0.ne', div_le_div_iff_of_pos_right hs0]
    linarith
  have h5 := Int.ceil_le_ceil h4
  have h6 : ⌈(c.par.rmax + (c.given t).ripples) / c.par.dr + 1⌉ = ⌈(c.par.rmax + (c.given t).ripples) / c.par.dr⌉ + 1 := Int.ceil_add_one _
  change _ ≤ ⌈(c.par.rmax + (c.given t).ripples) / c.par.dr⌉ at h3
  omega

/-! ### The hypotheses can be met -/

/-- The structures of any one class: an evaluation up to 20, then `setRmax` to 10 and to 40, and another profile. -/
example (cls : Kind Lat Sym → Prop) (hcls : ∀ a b, cls a → cls b → SameClass a b) (s : Sorter) :
    ∃ k : Cls (ℝ × Bool) {x : RStru // ExStru cls x}, IsPDFCalculator s (fun c => (exLib c).pcfg) (fun x => x.1) k ∧
      Regular (fun c => (exLib c).pcfg) (fun x => x.1) k ∧ ∀ x : {x : RStru // ExStru cls x}, x.1.atoms ≠ [] →
        k.isEmpty x = false ∧ ∀ e, let r := pcEval k (pcRun k (pcInit k (20, true) e 0 1) []) x
        let cf := (exLib r.h.cfg).pcfg
        let later := fun r : ℝ => [POp.configure (S := {x : RStru // ExStru cls x}) (fun c : ℝ × Bool => (r, c.2)) true true]
        Configures (later 10) ∧ rgrid cf.par.rmin cf.par.rmax cf.par.dr ≠ [] ∧
        Inside (cf.given (k.tails r.h.cfg x)) (exLib (pcRun k r (later 10)).h.cfg).pcfg.par ∧
        ¬ Inside (cf.given (k.tails r.h.cfg x)) (exLib (pcRun k r (later 40)).h.cfg).pcfg.par := by
  obtain ⟨k, hk, -⟩ := library_exists s exLib (fun x : {x : RStru // ExStru cls x} => x.1) (fun _ => false)
  have hu := exLib_usual cls hcls (fun c => c) (fun x : {x : RStru // ExStru cls x} => x.1) (fun x => x.2) k
  have hr := library_regular hk hu
  refine ⟨k, library_calculator hk hu, hr, fun x hx => ⟨?_, fun e => ?_⟩⟩
  · cases h : k.isEmpty x with
    | false => rfl
    | true => exact absurd (hk.empty x h) hx
  intro r cf later
  have hcfg : r.h.cfg = (20, true) := evalSt_cfg k.control (fun y c => congrArg Prod.fst (hk.custom y c)) _ x
  have hcf : cf = (exLib (20, true)).pcfg := congrArg (fun c => (exLib c).pcfg) hcfg
  have hl : ∀ q, (pcRun k r (later q)).h.cfg = (q, true) := by
    intro q
    show (q, r.h.cfg.2) = _
    rw [hcfg]
  have ok := hr.ok (20, true) x
  have hpi := Real.pi_lt_four
  rw [hl, hl, hcfg, hcf]
  refine ⟨fun o ho => ⟨_, _, _, List.mem_singleton.1 ho⟩, ?_, inside_sub ok _ rfl (le_refl _) ?_ ?_, outside_beyond ok _ rfl ?_⟩
  · intro h
    have hlen := congrArg List.length h
    unfold rgrid at hlen
    rw [List.length_map, length_intRange, rminSteps_ceil _ ok.step, rmaxSteps_ceil _ (lt_trans eps_pos ok.step)] at hlen
    change (⌈(20 : ℝ) / (1 / 100)⌉ - ⌈((0 : ℝ) - 1 / 2 ^ 26) / (1 / 100)⌉).toNat = 0 at hlen
    have e1 : ⌈(20 : ℝ) / (1 / 100)⌉ = 2000 := by
      rw [Int.ceil_eq_iff]
      norm_num
    have e2 : ⌈((0 : ℝ) - 1 / 2 ^ 26) / (1 / 100)⌉ = 0 := by
      rw [Int.ceil_eq_iff]
      norm_num
    rw [e1, e2] at hlen
    exact absurd hlen (by decide)
  · show (0 : ℝ) ≤ 10
    norm_num
  · show (10 : ℝ) ≤ 20
    norm_num
  · show (20 : ℝ) + (exLib (20, true)).p.ripples + 1 / 100 ≤ 40
    have hq : Fft.getQmax (20 : ℝ) (1 / 100) = 20 := by
      unfold Fft.getQmax
      refine min_eq_left ?_
      rw [div_div_eq_mul_div, le_div_iff₀ (by norm_num)]
      have := Real.pi_gt_three
      norm_num
      linarith
    have hrip : (exLib (20, true)).p.ripples ≤ 6 * 2 * Real.pi / 20 := by
      unfold Setters.P.ripples
      dsimp only
      rw [show Fft.getQmax (exLib (20, true)).p.qmax (exLib (20, true)).p.rstep = 20 from hq]
      split
      · exact le_refl _
      · positivity
    linarith

end Verif.PDFHist
