import Verif.Props.DebyeOutput
/-! C94: what the results of a DebyePDFCalculator are when settings have been changed since the evaluation. -/
set_option linter.unusedSectionVars false
namespace Verif.DebyeHist
open Verif.Eval Verif.Diff Verif.KindDiff Verif.History Verif.Debye Verif.Setters Verif.R3 Verif.Lattice Verif.Geo
open Verif.PDFHist (POp sitesOf)
open Verif.PDFGrid (rgrid rminSteps rmaxSteps eps eps_pos lt_rmaxSteps rminSteps_nonneg rminSteps_le mem_intRange intRange)
open scoped BigOperators

/-! ### Specification -/

variable {C S : Type}

/-- Calls that change settings only: no evaluation, no new structure, no other evaluator. -/
def Configures (ops : List (POp C S)) : Prop := ∀ o ∈ ops, ∃ f clicks r, o = POp.configure f clicks r

/-- As `IsPDF` of C89 for the configuration `c` of the evaluation, on the r grid of the range `d`. -/
def IsPDFOn (c : DCfg) (d : D) (x : RStru) (qmin : ℝ) (w : ℝ → ℝ) (z : Option (List ℝ)) : Prop :=
  ∃ δ y, 0 < δ ∧ δ ≤ d.rstep ∧ z = some y ∧ y.length = (rgrid d.rmin d.rmax d.rstep).length ∧
    ∀ (m : ℕ) (r : ℝ), (rgrid d.rmin d.rmax d.rstep)[m]? = some r →
      ∃ v, y[m]? = some v ∧ |v - between (debyeG c x qmin) δ r * w r| ≤ debyeGErr c x qmin * |w r|

/-! ### Proof -/

/-- Settings leave the results of the evaluation as they are. -/
theorem configures_keep (k : Cls C S) (later : List (POp C S)) (hl : Configures later) : ∀ s : DC C S, (dcRun k s later).d = s.d := by
  induction later with
  | nil => intro s; rfl
  | cons o l ih =>
    intro s
    obtain ⟨f, cl, r, rfl⟩ := hl o List.mem_cons_self
    exact ih (fun o ho => hl o (List.mem_cons_of_mem _ ho)) (dcStep k s (.configure f cl r))

/-- Number of points of the stored averages. -/
theorem sfAverage_length (p : QPar) (c : Cache) (sites : List Site) : (sfAverage p c sites).length = p.hi.toNat := by
  unfold sfAverage
  simp only [List.length_map]
  have : ∀ (l : List Nat) (v : List ℝ), (l.foldl (fun sfak tp =>
      (intRange p.lo p.hi).foldl (fun sfak (kq : ℤ) =>
        sfak.modify kq.toNat (· + (c.sftype.getD tp []).getD kq.toNat 0 *
          ((typeMultiplicities c sites).getD tp 0 : ℝ))) sfak) v).length = v.length := by
    intro l
    induction l with
    | nil => intro v; rfl
    | cons a l ih =>
      intro v
      rw [List.foldl_cons, ih, PDFGrid.length_foldl_modify (fun kq : ℤ => (c.sftype.getD a []).getD kq.toNat 0 *
          ((typeMultiplicities c sites).getD a 0 : ℝ))]
  rw [this]
  simp

/-- F(Q) read with fewer points than stored: normalised up to the new number of points, raw beyond. -/
theorem getF_fewer (p p' : QPar) (avg v : List ℝ) (totocc : ℝ) (hlo : p.lo = 0) (hlo' : p'.lo = 0) (hv : v.length = p.hi.toNat)
    (ha : avg.length = p.hi.toNat) (h0 : 0 ≤ p.hi) (h0' : 0 ≤ p'.hi) (hle : p'.hi ≤ p.hi) :
    ∃ F F', Debye.getF p avg totocc v = some F ∧ Debye.getF p' avg totocc v = some F' ∧ F.length = v.length ∧ F'.length = v.length ∧
      (∀ m : ℕ, (m : ℤ) < p'.hi → F'[m]? = F[m]?) ∧ ∀ m : ℕ, p'.hi ≤ m → F'[m]? = v[m]? := by
  obtain ⟨F, a1, a2, a3⟩ := getF_loop avg totocc p.hi.toNat 0 v (le_refl _) (by omega) (by omega)
  obtain ⟨F', b1, b2, b3⟩ := getF_loop avg totocc p'.hi.toNat 0 v (le_refl _) (by omega) (by omega)
  have e : (0 : ℤ) + (p.hi.toNat : ℤ) = p.hi := by omega
  have e' : (0 : ℤ) + (p'.hi.toNat : ℤ) = p'.hi := by omega
  rw [e] at a1 a3
  rw [e'] at b1 b3
  have get : ∀ (l l' : List ℝ) (m : ℕ), l.length = l'.length → (m < l.length → l.getD m 0 = l'.getD m 0) → l[m]? = l'[m]? := by
    intro l l' m hl h
    by_cases hm : m < l.length
    · have := h hm
      rw [List.getD_eq_getElem _ _ hm, List.getD_eq_getElem _ _ (by omega)] at this
      rw [List.getElem?_eq_getElem hm, List.getElem?_eq_getElem (by omega), this]
    · rw [List.getElem?_eq_none (by omega), List.getElem?_eq_none (by omega)]
  refine ⟨F, F', ?_, ?_, a2, b2, fun m hm => get _ _ _ (by omega) fun hl => ?_, fun m hm => get _ _ _ (by omega) fun hl => ?_⟩
  · unfold Debye.getF
    rw [hlo]
    exact a1
  · unfold Debye.getF
    rw [hlo']
    exact b1
  · have i1 : (0 : ℤ) ≤ (m : ℤ) ∧ (m : ℤ) < p.hi := by omega
    have i2 : (0 : ℤ) ≤ (m : ℤ) ∧ (m : ℤ) < p'.hi := by omega
    rw [a3 m (by omega), b3 m (by omega), if_pos i1, if_pos i2]
  · rw [b3 m (by omega), if_neg (by omega), mul_one]

/-- The transform of F(Q) on any r grid that ends a step before π/Qstep. -/
theorem pdf_on_grid (qmin qstep rmin rmax rstep : ℝ) (f : List ℝ) (hq : 1 / 2 ^ 26 < qstep) (h0 : 0 ≤ qmin) (hm : 0 ≤ rmin) (hr : 1 / 2 ^ 26 < rstep)
    (hx : rmax + rstep ≤ Real.pi / qstep) :
    ∃ δ : ℝ, 0 < δ ∧ δ ≤ rstep ∧ getPDFAtQmin qmin qstep rmin rmax rstep f = some ((rgrid rmin rmax rstep).map fun r => between (sinePDF qmin qstep f) δ r) := by
  have hrs0 : 0 < rstep := lt_trans (by positivity) hr
  have hrs : (eps : ℝ) < rstep := hr
  obtain ⟨N, hN, -, -, hdr, hdr0, hdrN, hv⟩ := gpad_spec qmin qstep rstep f hq h0 hrs0
  obtain ⟨δ, hδ⟩ : ∃ δ, δ = drpad N qstep := ⟨_, rfl⟩
  rw [← hδ] at hdr hdr0 hdrN hv
  refine ⟨δ, hdr0, hdr, ?_⟩
  unfold getPDFAtQmin
  simp only
  rw [hN, ← hδ]
  apply mapM_option
  intro r hr'
  unfold rgrid at hr'
  rw [List.mem_map] at hr'
  obtain ⟨n, hn, rfl⟩ := hr'
  rw [mem_intRange] at hn
  have hn0 : 0 ≤ n := (rminSteps_nonneg hrs hm).trans hn.1
  have hn0' : (0 : ℝ) ≤ n := by exact_mod_cast hn0
  have hlt : (n : ℝ) * rstep < rmax := (lt_rmaxSteps _ _ hrs0 n).1 hn.2
  have r2 : (n : ℝ) * rstep / δ < (N : ℝ) - 1 := by
    rw [div_lt_iff₀ hdr0]
    have e1 : ((N : ℝ) - 1) * δ = δ * N - δ := by ring
    rw [e1, hdrN]
    linarith
  have r0 : 0 ≤ (n : ℝ) * rstep := by positivity
  generalize (n : ℝ) * rstep = r at r0 r2
  rw [interp_spec _ δ r hdr0 r0 (by rw [hN]; exact r2)]
  have hx : 0 ≤ r / δ := by positivity
  have hf0 : 0 ≤ ⌊r / δ⌋ := Int.floor_nonneg.2 hx
  have hlt : ⌊r / δ⌋ + 1 < (N : ℤ) := by
    have h1 : (⌊r / δ⌋ : ℝ) ≤ r / δ := Int.floor_le _
    have : (⌊r / δ⌋ : ℝ) + 1 < (N : ℝ) := by linarith
    exact_mod_cast this
  have hcast : ((⌊r / δ⌋.toNat : ℕ) : ℝ) = (⌊r / δ⌋ : ℝ) := by
    have : ((⌊r / δ⌋.toNat : ℕ) : ℤ) = ⌊r / δ⌋ := by omega
    exact_mod_cast this
  rw [hv _ (by omega), hv _ (by omega)]
  push_cast
  rw [hcast]
  rfl

/-- One point at or beyond π/Qstep is an access outside of the transformed array. -/
theorem pdf_beyond (qmin qstep rmin rmax rstep : ℝ) (f : List ℝ) (hq : 1 / 2 ^ 26 < qstep) (h0 : 0 ≤ qmin) (hr : 1 / 2 ^ 26 < rstep)
    (r : ℝ) (hr' : r ∈ rgrid rmin rmax rstep) (hx : Real.pi / qstep ≤ r) : getPDFAtQmin qmin qstep rmin rmax rstep f = none := by
  have hrs0 : 0 < rstep := lt_trans (by positivity) hr
  obtain ⟨N, hN, -, -, -, hdr0, hdrN, -⟩ := gpad_spec qmin qstep rstep f hq h0 hrs0
  unfold getPDFAtQmin
  simp only
  rw [hN]
  generalize drpad N qstep = δ at hdr0 hdrN
  generalize fftN : Fft.fftftog (padF qmin qstep rstep f) qstep 0 = g at hN
  have h1 : interp g δ r = none := by
    unfold interp
    dsimp only
    have h2 : (N : ℝ) ≤ r / δ := by
      rw [le_div_iff₀ hdr0, mul_comm, hdrN]
      exact hx
    have h3 : (N : ℤ) ≤ ⌊r / δ⌋ := Int.le_floor.2 (by exact_mod_cast h2)
    split
    · rw [List.getElem?_eq_none (by omega)]
      rfl
    · rfl
  clear fftN hx
  generalize rgrid rmin rmax rstep = l at hr'
  induction l with
  | nil => cases hr'
  | cons a l ih =>
    rw [List.mapM_cons]
    rcases List.mem_cons.1 hr' with rfl | h
    · rw [h1]
      rfl
    · rw [ih h]
      cases interp g δ a <;> rfl

theorem hi_count (c : DCfg) (hg : c.d.Good) : c.d.q.hi = ⌈c.d.q.qmax / c.d.q.qstep⌉ ∧ 0 ≤ c.d.q.hi := by
  have hq0 : 0 < c.d.q.qstep := lt_trans (by positivity) hg.qstep
  have e : c.d.q.hi = ⌈c.d.q.qmax / c.d.q.qstep⌉ := by
    unfold QPar.hi PDFGrid.qmaxSteps
    rw [if_neg (not_le.2 hq0)]
  refine ⟨e, ?_⟩
  rw [e]
  exact Int.ceil_nonneg (div_nonneg hg.qmax hq0.le)

/-! ### Theorems -/

/-- **C94** (partial).  After any history that ends with the evaluation of a structure, and any later change of settings.  F(Q) keeps the number of points of
the evaluation.  Where the settings of the time have no more points, it is that of the structure under the settings of the evaluation for the points
that they have, and the sum that `value()` returns, without normalisation, for the others; with more points it is an access outside of the arrays. -/
theorem stale_F_partial (s : Sorter) (hs : SortSpec s) (conf : C → DCfg) (stru : S → RStru) (tails : C → S → ℝ → ℝ → ℝ) (k : Cls C S)
    (hk : IsDebyeCalculator s conf stru tails k) (hr : Regular conf stru tails k)
    (c : C) (e : S) (ops : List (POp C S)) (x : S) (later : List (POp C S)) (hl : Configures later)
    (ht : taintRunF conf k (dcInit k c e 0 1) (ops ++ [.eval x]) = false) :
    let r := dcEval k (dcRun k (dcInit k c e 0 1) ops) x
    let cf := conf r.h.cfg
    let r' := dcRun k r later
    let now := conf r'.h.cfg
    (∀ t (q q' : ℝ), 0 ≤ q → q ≤ q' → |cf.lookup t q'| ≤ |cf.lookup t q|) → 1 / 2 ^ 26 < atomCount (sitesOf (stru x)) → 0 ≤ cf.d.q.prec →
    (qCount now ≤ qCount cf → ∃ F, getF k r' = some F ∧ F.length = qCount cf ∧
      (∀ m < qCount now, ∃ y, F[m]? = some y ∧ |y - debyeF cf (stru x) (m * cf.d.q.qstep)| ≤ debyeErr cf (stru x) (m * cf.d.q.qstep)) ∧
      ∀ m, qCount now ≤ m → F[m]? = r.d.value[m]?) ∧
    (qCount cf < qCount now → getF k r' = none) := by
  intro r cf r' now hdec hocc hprec
  obtain ⟨F, hF, hlen, hv⟩ := F_history_partial s hs conf stru tails k hk hr c e ops x ht hdec hocc hprec
  have hFe := F_error cf (stru x) F hv
  obtain ⟨hset, v, hv', hj⟩ := joint_history k (par_ok hk hr) _ 1 (le_refl _) (ghost_lawful hs hk hr) _ (quiet_law hs hk hr) c e ops x ht
  obtain ⟨-, hA⟩ := hj 0 Nat.one_pos
  have hd : r'.d = r.d := configures_keep k later hl r
  obtain ⟨i1, i2⟩ := hi_count cf (hr.good _)
  obtain ⟨j1, j2⟩ := hi_count now (hr.good _)
  have hp : k.par r.h.cfg = cf.d.q := hk.par _
  have hp' : k.par r'.h.cfg = now.d.q := hk.par _
  have l1 : r.d.value.length = cf.d.q.hi.toNat := by rw [← hp]; exact hA.len
  have l2 : r.d.avg.length = cf.d.q.hi.toNat := by
    have : r.d.avg = k.avg r.h.cfg x := hA.avg
    rw [this, hk.avg, sfAverage_length]
  have lo : cf.d.q.lo = 0 := (good_par (hr.good _)).2
  have lo' : now.d.q.lo = 0 := (good_par (hr.good _)).2
  have q1 : qCount cf = cf.d.q.hi.toNat := by unfold qCount; rw [i1]
  have q2 : qCount now = now.d.q.hi.toNat := by unfold qCount; rw [j1]
  have hF0 : Debye.getF cf.d.q r.d.avg r.d.totocc r.d.value = some F := by rw [← hp]; exact hF
  unfold getF
  rw [hd, hp']
  refine ⟨fun hle => ?_, fun hlt => ?_⟩
  · obtain ⟨F0, F', f1, f2, f3, f4, f5, f6⟩ := getF_fewer cf.d.q now.d.q r.d.avg r.d.value r.d.totocc lo lo' l1 l2 i2 j2 (by omega)
    obtain rfl : F = F0 := Option.some.inj (hF0.symm.trans f1)
    refine ⟨F', f2, by omega, fun m hm => ?_, fun m hm => f6 m (by omega)⟩
    have hm' : m < F.length := by omega
    refine ⟨F[m], by rw [f5 m (by omega), List.getElem?_eq_getElem hm'], ?_⟩
    have := hFe m hm'
    rw [List.getD_eq_getElem _ _ hm'] at this
    exact this
  · exact getF_stale_bug cf.d.q now.d.q (good_par (hr.good _)).1 _ _ _ l1 (by omega) i2 (by omega)

/-- **C94** (partial).  With the number of Q points and the Q step of the evaluation, G(r) and the RDF are those of the structure under the settings of the
evaluation, on the r grid of the time, as long as that ends a step before π/Qstep; a point of the grid beyond that is an access outside of the
array. -/
theorem stale_G_partial (s : Sorter) (hs : SortSpec s) (conf : C → DCfg) (stru : S → RStru) (tails : C → S → ℝ → ℝ → ℝ) (k : Cls C S)
    (hk : IsDebyeCalculator s conf stru tails k) (hr : Regular conf stru tails k)
    (c : C) (e : S) (ops : List (POp C S)) (x : S) (later : List (POp C S)) (hl : Configures later)
    (ht : taintRunF conf k (dcInit k c e 0 1) (ops ++ [.eval x]) = false) :
    let r := dcEval k (dcRun k (dcInit k c e 0 1) ops) x
    let cf := conf r.h.cfg
    let r' := dcRun k r later
    let now := (conf r'.h.cfg).d
    let pars := fun c => (conf c).d
    (∀ t (q q' : ℝ), 0 ≤ q → q ≤ q' → |cf.lookup t q'| ≤ |cf.lookup t q|) → 1 / 2 ^ 26 < atomCount (sitesOf (stru x)) → 0 ≤ cf.d.q.prec →
    now.q.qstep = cf.d.q.qstep → qCount (conf r'.h.cfg) = qCount cf →
    (now.rmax + now.rstep ≤ Real.pi / cf.d.q.qstep →
      (∀ qmin env, 0 ≤ qmin → IsPDFOn cf now (stru x) qmin env (getPDF k pars r' qmin env)) ∧
        IsPDFOn cf now (stru x) 0 (fun _ => 1) (getRDFperR k pars r') ∧ IsPDFOn cf now (stru x) 0 (fun r => r) (getRDF k pars r')) ∧
    ((∃ y ∈ rgrid now.rmin now.rmax now.rstep, Real.pi / cf.d.q.qstep ≤ y) →
      (∀ qmin env, 0 ≤ qmin → getPDF k pars r' qmin env = none) ∧ getRDFperR k pars r' = none ∧ getRDF k pars r' = none) := by
  intro r cf r' now pars hdec hocc hprec hq hn
  obtain ⟨h1, -⟩ := stale_F_partial s hs conf stru tails k hk hr c e ops x later hl ht hdec hocc hprec
  obtain ⟨F, hF, hlen, hval, -⟩ := h1 hn.le
  have hF' : getF k r' = some F := hF
  have hg' : now.Good := hr.good _
  have hq1 : 1 / 2 ^ 26 < cf.d.q.qstep := (hr.good _).qstep
  have hq0 : 0 < cf.d.q.qstep := lt_trans (by positivity) hq1
  have hFe : ∀ m < F.length, |F.getD m 0 - debyeF cf (stru x) (m * cf.d.q.qstep)| ≤ debyeErr cf (stru x) (m * cf.d.q.qstep) := by
    intro m hm
    obtain ⟨y, hy, hb⟩ := hval m (lt_of_lt_of_eq hm (hlen.trans hn.symm))
    rw [List.getD_eq_getElem?_getD, hy, Option.getD_some]
    exact hb
  have hp : ∀ qmin, pdfAtQmin k pars r' qmin = getPDFAtQmin qmin cf.d.q.qstep now.rmin now.rmax now.rstep F := by
    intro qmin
    unfold pdfAtQmin
    rw [hF', Option.bind_some, ← hq]
  have hgrid : gridOf now = rgrid now.rmin now.rmax now.rstep := rfl
  refine ⟨fun hx => ?_, fun ⟨y, hy, hx⟩ => ?_⟩
  · have key : ∀ qmin, 0 ≤ qmin → ∀ (w : ℝ → ℝ) (op : ℝ → ℝ → ℝ), (∀ r y, op r y = y * w r) →
        IsPDFOn cf now (stru x) qmin w ((pdfAtQmin k pars r' qmin).map fun g => List.zipWith op (gridOf now) g) := by
      intro qmin h0 w op hop
      obtain ⟨δ, d1, d2, d3⟩ := pdf_on_grid qmin cf.d.q.qstep now.rmin now.rmax now.rstep F hq1 h0 hg'.rmin hg'.rstep hx
      rw [hp, d3]
      refine ⟨δ, _, d1, d2, rfl, ?_, fun m r hm => ?_⟩
      · rw [hgrid, List.length_zipWith, List.length_map, min_self]
      · rw [hgrid, List.getElem?_zipWith, hm, List.getElem?_map, hm]
        refine ⟨_, rfl, ?_⟩
        rw [hop, ← sub_mul, abs_mul]
        refine mul_le_mul_of_nonneg_right ?_ (abs_nonneg _)
        exact between_error _ _ _ δ r (sine_error cf (stru x) qmin F hq0 hlen hFe)
    refine ⟨fun qmin env h0 => key qmin h0 env _ fun _ _ => rfl, ?_, key 0 (le_refl _) (fun r => r) _ fun r y => mul_comm r y⟩
    have := key 0 (le_refl _) (fun _ => 1) (fun _ y => y) fun _ y => (mul_one y).symm
    obtain ⟨δ, -, -, d3⟩ := pdf_on_grid 0 cf.d.q.qstep now.rmin now.rmax now.rstep F hq1 (le_refl _) hg'.rmin hg'.rstep hx
    have e : getRDFperR k pars r' = (pdfAtQmin k pars r' 0).map fun g => List.zipWith (fun _ y => y) (gridOf now) g := by
      unfold getRDFperR
      rw [hp, d3, Option.map_some]
      congr 1
      refine List.ext_getElem (by rw [hgrid, List.length_zipWith, List.length_map, min_self]) fun i h1 h2 => ?_
      rw [List.getElem_zipWith]
    rw [e]
    exact this
  · have key : ∀ qmin, 0 ≤ qmin → pdfAtQmin k pars r' qmin = none := by
      intro qmin h0
      rw [hp]
      exact pdf_beyond qmin cf.d.q.qstep now.rmin now.rmax now.rstep F hq1 h0 hg'.rstep y hy hx
    refine ⟨fun qmin env h0 => ?_, key 0 (le_refl _), ?_⟩
    · unfold getPDF
      rw [key qmin h0]
      rfl
    · unfold getRDF getRDFperR
      rw [key 0 (le_refl _)]
      rfl

/-- The settings that leave the Q step and the number of Q points: Qmin, rmin, rstep and the precision. -/
theorem quiet_settings (tails : ℝ → ℝ → ℝ) (d d' : D) (op : DOp)
    (hop : (∃ x, op = .setQmin x) ∨ (∃ x, op = .setRmin x) ∨ (∃ x, op = .setRstep x) ∨ ∃ x, op = .setPrecision x) (h : dstep tails d op = .ok d') :
    d'.q.qstep = d.q.qstep ∧ d'.q.qmax = d.q.qmax := by
  rcases hop with ⟨x, rfl⟩ | ⟨x, rfl⟩ | ⟨x, rfl⟩ | ⟨x, rfl⟩
  · change (if throwsNegative x then Except.error d else (baseSetQmin 0 d).bind fun d => .ok { d with qminpdf := x }) = _ at h
    by_cases hx : throwsNegative x = true
    · rw [if_pos hx] at h
      cases h
    · rw [if_neg hx] at h
      unfold baseSetQmin at h
      by_cases hz : throwsNegative 0 = true
      · rw [if_pos hz] at h
        cases h
      · rw [if_neg hz] at h
        cases h
        exact ⟨rfl, rfl⟩
  · change (if throwsNegative x then Except.error d else .ok (pqSetRmin x { d with cached := if d.rmin ≠ x then false else d.cached })) = _ at h
    by_cases hx : throwsNegative x = true
    · rw [if_pos hx] at h
      cases h
    · rw [if_neg hx] at h
      cases h
      unfold pqSetRmin D.clickIf
      dsimp only
      split <;> exact ⟨rfl, rfl⟩
  · change (if throwsNotPositive x then Except.error d else .ok { d with cached := if d.rstep ≠ x then false else d.cached, rstep := x }) = _ at h
    by_cases hx : throwsNotPositive x = true
    · rw [if_pos hx] at h
      cases h
    · rw [if_neg hx] at h
      cases h
      exact ⟨rfl, rfl⟩
  · change Setters.setPrecision x d = _ at h
    unfold Setters.setPrecision at h
    cases h
    exact ⟨rfl, rfl⟩

/-- Raising Qmax by a Q step or more with the optimum Q step makes more points, so that `getF` before the next evaluation is an access outside of the arrays. -/
theorem raised_qmax_bug (tails : ℝ → ℝ → ℝ) (d d' : D) (x : ℝ) (hg : d.Good) (hc : d.cached = true) (ho : d.optimum = true)
    (hq : d.q.qstep = Real.pi / d.rcalchi) (hw : 4 * Real.pi < d.q.qmax * d.rcalchi) (hx : d.q.qmax + d.q.qstep ≤ x)
    (h : dstep tails d (.setQmax x) = .ok d') : d'.q.qstep = d.q.qstep ∧ ⌈d.q.qmax / d.q.qstep⌉ < ⌈d'.q.qmax / d'.q.qstep⌉ := by
  have hq0 : 0 < d.q.qstep := lt_trans (by positivity) hg.qstep
  have hr0 : 0 ≤ d.rcalchi := mul_nonneg (by exact_mod_cast hg.chi) (le_trans (by positivity) hg.rstep.le)
  change (baseSetQmax x d).bind (updateQstep tails) = _ at h
  unfold baseSetQmax at h
  by_cases hn : throwsNegative x = true
  · rw [if_pos hn] at h
    cases h
  rw [if_neg hn, clickIf_fields] at h
  change updateQstep tails _ = _ at h
  rw [updateQstep_eq] at h
  unfold ensureCached at h
  dsimp only at h
  rw [if_pos hc] at h
  dsimp only at h
  rw [if_pos (Or.inr ho)] at h
  have hoq : (({ d with clicks := if decide (d.q.qmax ≠ x) = true then d.clicks + 1 else d.clicks, q := { d.q with qmax := x } } : D)).oqstep =
      Real.pi / d.rcalchi := by
    unfold D.oqstep
    rw [if_pos]
    · rfl
    · show x * d.rcalchi / Real.pi > 4
      rw [gt_iff_lt, lt_div_iff₀ Real.pi_pos]
      have : d.q.qmax * d.rcalchi ≤ x * d.rcalchi := mul_le_mul_of_nonneg_right (by linarith) hr0
      linarith
  dsimp only at h hoq
  rw [hoq, ← hq, if_pos hg.qstep, clickIf_fields] at h
  cases h
  refine ⟨rfl, ?_⟩
  show ⌈d.q.qmax / d.q.qstep⌉ < ⌈x / d.q.qstep⌉
  have h2 : d.q.qmax / d.q.qstep + 1 ≤ x / d.q.qstep := by
    rw [div_add_one hq0.ne', div_le_div_iff_of_pos_right hq0]
    exact hx
  have h5 := Int.ceil_mono h2
  rw [Int.ceil_add_one] at h5
  omega

/-- The same for raising rmax beyond the calculated range, by π/Qmax at least. -/
theorem raised_rmax_bug (tails : ℝ → ℝ → ℝ) (ht : ∀ a b, 0 ≤ tails a b) (d d' : D) (x : ℝ) (hg : d.Good) (ho : d.optimum = true)
    (hq : d.q.qstep = Real.pi / d.rcalchi) (hm : d.rmax ≤ d.rcalchi) (hw : 4 * Real.pi < d.q.qmax * d.rcalchi) (hx : d.rcalchi + Real.pi / d.q.qmax ≤ x)
    (h : dstep tails d (.setRmax x) = .ok d') : ⌈d.q.qmax / d.q.qstep⌉ < ⌈d'.q.qmax / d'.q.qstep⌉ := by
  have hpi := Real.pi_pos
  have hr0 : 0 ≤ d.rcalchi := mul_nonneg (by exact_mod_cast hg.chi) (le_trans (by positivity) hg.rstep.le)
  have hs0 : 0 < d.rstep := lt_trans (by positivity) hg.rstep
  have hqm : 0 < d.q.qmax := by
    rcases hg.qmax.lt_or_eq with h0 | h0
    · exact h0
    · rw [← h0, zero_mul] at hw
      linarith
  have hpq : 0 < Real.pi / d.q.qmax := by positivity
  change (if throwsNegative x then Except.error d else updateQstep tails (pqSetRmax x { d with cached := if d.rmax ≠ x then false else d.cached })) = _ at h
  by_cases hn : throwsNegative x = true
  · rw [if_pos hn] at h
    cases h
  have hne : d.rmax ≠ x := by
    intro e
    linarith
  rw [if_neg hn, if_pos hne] at h
  have f : ∀ e : D, e = pqSetRmax x { d with cached := false } →
      e.q = d.q ∧ e.rmax = x ∧ e.rstep = d.rstep ∧ e.optimum = true ∧ e.cached = false ∧ e.chi = d.chi ∧ e.maxext = d.maxext := by
    intro e he
    rw [he]
    unfold pqSetRmax
    rw [clickIf_fields]
    exact ⟨rfl, rfl, rfl, ho, rfl, rfl, rfl⟩
  generalize he : pqSetRmax x { d with cached := false } = e at h f
  obtain ⟨f1, f2, f3, f4, f5, f6, f7⟩ := f e rfl
  rw [updateQstep_eq] at h
  have hec : ensureCached tails e = cacheRlimits tails e := by
    unfold ensureCached
    rw [f5]
    rfl
  rw [hec] at h
  have g1 : (cacheRlimits tails e).q = d.q := f1
  have g2 : (cacheRlimits tails e).optimum = true := f4
  have hchi : x ≤ (cacheRlimits tails e).rcalchi := by
    have hx1 : x ≤ (rmaxSteps (e.rmax + e.ext tails) e.rstep : ℝ) * e.rstep := by
      have h0 := ext_nonneg tails ht e (by rw [f7]; exact hg.maxext)
      have h1 : e.rmax + e.ext tails ≤ (rmaxSteps (e.rmax + e.ext tails) e.rstep : ℝ) * e.rstep := by
        unfold rmaxSteps
        rw [← div_le_iff₀ (by rw [f3]; exact hs0)]
        exact Int.le_ceil _
      rw [f2] at h1 ⊢
      linarith
    show x ≤ (((if rmaxSteps (e.rmax + e.ext tails) e.rstep ≤ e.chi - 50 ∨ rmaxSteps (e.rmax + e.ext tails) e.rstep > e.chi then
      rmaxSteps (e.rmax + e.ext tails) e.rstep else e.chi : ℤ)) : ℝ) * e.rstep
    split
    · exact hx1
    · next hno =>
      have h2 : rmaxSteps (e.rmax + e.ext tails) e.rstep ≤ e.chi := by omega
      have h3 : (rmaxSteps (e.rmax + e.ext tails) e.rstep : ℝ) ≤ (e.chi : ℝ) := by exact_mod_cast h2
      exact hx1.trans (mul_le_mul_of_nonneg_right h3 (by rw [f3]; exact hs0.le))
  generalize cacheRlimits tails e = d1 at h g1 g2 hchi
  dsimp only at h
  rw [if_pos (Or.inr g2)] at h
  have hpos : 0 < d1.rcalchi := by linarith
  have hoq : d1.oqstep = Real.pi / d1.rcalchi := by
    unfold D.oqstep
    rw [if_pos]
    rw [g1, gt_iff_lt, lt_div_iff₀ hpi]
    have : d.q.qmax * d.rcalchi ≤ d.q.qmax * d1.rcalchi := mul_le_mul_of_nonneg_left (by linarith) hqm.le
    linarith
  rw [hoq] at h
  split at h
  swap
  · cases h
  rw [clickIf_fields] at h
  cases h
  rw [hq]
  show _ < ⌈d1.q.qmax / (Real.pi / d1.rcalchi)⌉
  rw [g1]
  have h2 : d.q.qmax / (Real.pi / d.rcalchi) + 1 ≤ d.q.qmax / (Real.pi / d1.rcalchi) := by
    rw [div_div_eq_mul_div, div_div_eq_mul_div, div_add_one hpi.ne', div_le_div_iff_of_pos_right hpi]
    have h4 : d.q.qmax * (d.rcalchi + Real.pi / d.q.qmax) ≤ d.q.qmax * d1.rcalchi := mul_le_mul_of_nonneg_left (hx.trans hchi) hqm.le
    rw [mul_add, mul_div_cancel₀ _ hqm.ne'] at h4
    exact h4
  have h5 := Int.ceil_mono h2
  rw [Int.ceil_add_one] at h5
  omega

/-! ### The hypotheses can be met -/

/-- Parameters as in the example of C87 with any Qmax from 10 to 30: r to 10 in steps of 1, calculated to 20. -/
noncomputable def exQmax (x : ℝ) : D :=
  { q := ⟨0, x, Real.pi / 20, 1 / 1000000⟩, qminpdf := 0, rmin := 0, rmax := 10, rstep := 1, maxext := 10,
    optimum := true, clo := 0, chi := 20, cached := true, clicks := 3 }

theorem exQmax_range (x : ℝ) (h1 : 10 ≤ x) : ExRange (exQmax x) := by
  have h3 := Real.pi_gt_three
  have h4 := Real.pi_le_four
  unfold exQmax
  refine ⟨⟨rfl, le_refl _, ?_, ?_, le_refl _, ?_, ?_, ?_, le_refl _, ?_⟩, rfl, rfl, rfl, rfl, ?_, ?_, ?_, ?_, ?_, ?_, ?_⟩ <;>
    norm_num [D.rcalchi] <;> linarith

/-- The calculator of the example of C87, evaluated with Qmax 20.  A change of the lower Q limit of the output keeps Q step and number of points, and the r grid
ends a step before π/Qstep; with Qmax 10 there are fewer points, and with Qmax 30 more. -/
example (q : ℝ) (hq : 0 ≤ q) :
    let at_ := fun x h => exConf ⟨exQmax x, exQmax_range x h⟩
    let e := at_ 20 (by norm_num)
    let now := exConf (exQmin q hq ⟨exQmax 20, exQmax_range 20 (by norm_num)⟩)
    now.d.q.qstep = e.d.q.qstep ∧ qCount now = qCount e ∧ now.d.rmax + now.d.rstep ≤ Real.pi / e.d.q.qstep ∧
      qCount (at_ 10 (by norm_num)) < qCount e ∧ qCount e < qCount (at_ 30 (by norm_num)) := by
  intro at_ e now
  have h3 := Real.pi_gt_three
  have h4 := Real.pi_lt_d2
  have hpi := Real.pi_pos
  have hc : ∀ x h, qCount (at_ x h) = ⌈x / (Real.pi / 20)⌉.toNat := fun x h => rfl
  have lt : ∀ x y : ℝ, 0 ≤ x → x + 10 ≤ y → ⌈x / (Real.pi / 20)⌉.toNat < ⌈y / (Real.pi / 20)⌉.toNat := by
    intro x y h0 hxy
    have h1 : (0 : ℤ) ≤ ⌈x / (Real.pi / 20)⌉ := Int.ceil_nonneg (by positivity)
    have h2 : x / (Real.pi / 20) + 1 ≤ y / (Real.pi / 20) := by
      rw [div_add_one (by positivity), div_le_div_iff_of_pos_right (by positivity)]
      linarith
    have h5 := Int.ceil_mono h2
    rw [Int.ceil_add_one] at h5
    omega
  refine ⟨rfl, rfl, ?_, ?_, ?_⟩
  · show (10 : ℝ) + 1 ≤ Real.pi / (Real.pi / 20)
    rw [div_div_cancel₀ hpi.ne']
    norm_num
  · rw [hc 10 (by norm_num), hc 20 (by norm_num)]
    exact lt 10 20 (by norm_num) (by norm_num)
  · rw [hc 20 (by norm_num), hc 30 (by norm_num)]
    exact lt 20 30 (by norm_num) (by norm_num)

end Verif.DebyeHist
