import Verif.Model.PDFModels
import Verif.Props.PDFOutput
import Verif.Props.PDFSetters
import Verif.Props.PeakWidth
import Verif.Props.PeakShape
import Verif.Props.CrystalTensor
import Verif.Props.DebyeSum
/-! C90: the RDF and PDF of a PDFCalculator with the peak width models and profiles of the library. -/
namespace Verif.PDFHist
open Verif.Eval Verif.Diff Verif.KindDiff Verif.History Verif.PDFGrid Verif.PDFCache Verif.R3 Verif.Lattice Verif.Geo
open scoped BigOperators

/-! ### Specification -/

/-- The mean square displacement of an atom in the direction `v`: the quadratic form of the tensor, or U11 for an isotropic atom. -/
noncomputable def along (a : Atom) (v : V3) : ℝ :=
  if a.anisotropy = true then Peak.quad (siteOf a).uij v / V3.dot v v else a.u.u1

/-- Full width at half maximum of the peak of a bond of length `r` with mean square displacement `m` (the square root of a negative number is 0 here):
the constant, √(8 ln 2)·σ with σ² = m, or with σ² = m·(1 - δ₁/r - δ₂/r² + (q r)²) and (s r)² on top (unless the factor is not positive), where q and s
are the Q broadening and its separable form. -/
noncomputable def fwhm (w : PWM) (r m : ℝ) : ℝ :=
  match w with
  | .constant c => c.width
  | .debyeWaller => Real.sqrt (8 * Real.log 2) * Real.sqrt m
  | .jeong j => open Classical in
    if 1 - j.delta1 / r - j.delta2 / r ^ 2 + (j.qbroad * r) ^ 2 ≤ 0 then 0 else
      Real.sqrt (8 * Real.log 2) * (Real.sqrt m * Real.sqrt (1 - j.delta1 / r - j.delta2 / r ^ 2 + (j.qbroad * r) ^ 2)) + (j.qbroadSep * r) ^ 2

/-- The peak width of the bond `v` between two atoms. -/
noncomputable def pairWidth (w : PWM) (a b : Option Atom) (v : V3) : ℝ :=
  match a, b with
  | some a, some b => fwhm w (V3.norm v) (along a v + along b v)
  | _, _ => 0

/-- The normal distribution. -/
noncomputable def normal (σ x : ℝ) : ℝ := Real.exp (-(x / σ) ^ 2 / 2) / (σ * Real.sqrt (2 * Real.pi))

/-- The shape of a peak of full width `w`: a normal distribution; for the cropped profile cut where it falls to the precision times
its maximum, and rescaled to area one. -/
noncomputable def shape (f : PPF) (x w : ℝ) : ℝ :=
  let σ := w / Real.sqrt (8 * Real.log 2)
  match f with
  | .gauss _ => normal σ x
  | .cropped c => open Classical in
    if c.g.precision < Real.exp (-(x / σ) ^ 2 / 2) then normal σ x / Peak.erf (Real.sqrt (-Real.log c.g.precision)) else 0

/-- The contribution of the bond `v` with peak width `w` to the RDF at `r`, nothing for coincident atoms. -/
noncomputable def peakTerm (f : PPF) (r w : ℝ) (v : V3) : ℝ :=
  if 1 / 2 ^ 26 < V3.norm v then shape f (r - V3.norm v) w * (r / V3.norm v) else 0

/-- Half of the extent to which a peak of full width `w` is drawn: where it falls to the precision times its maximum. -/
noncomputable def extent (f : PPF) (w : ℝ) : ℝ :=
  open Classical in if f.precision < 1 then w * Real.sqrt (-Real.log f.precision / (4 * Real.log 2)) else 0

/-- The contribution of a bond at the grid point `n·dr` as drawn: from the grid point at or below the lower end of the peak to the last one not above its
upper end. -/
noncomputable def drawnTerm (f : PPF) (dr : ℝ) (n : ℤ) (w : ℝ) (v : V3) : ℝ :=
  open Classical in
  if 1 / 2 ^ 26 < V3.norm v ∧ ⌊(V3.norm v - extent f w) / dr⌋ ≤ n ∧ n ≤ ⌊(V3.norm v + extent f w) / dr⌋ then
    shape f ((n : ℝ) * dr - V3.norm v) w * ((n : ℝ) * dr / V3.norm v) else 0

/-- The RDF depends on this. -/
noncomputable def LCfg.pcfg (c : LCfg) : PCfg := ⟨c.par, c.p.ripples, c.ppf.prof, c.lookup, fun _ => pairWidth c.pwm, c.mask⟩

variable {C S : Type}

/-- `k` is the PDFCalculator with the configurations `conf` used with the structures `stru`; it asks the width model for the width of each bond, with the
displacements that the bond generator reports, and for the largest width in the structure. -/
structure IsLibraryCalculator (s : Sorter) (conf : C → LCfg) (stru : S → RStru) (k : Cls C S) : Prop where
  count : ∀ x, k.count x = (stru x).atoms.length
  empty : ∀ x, k.isEmpty x = true → (stru x).atoms = []
  diff : ∀ x y, k.diff x y = KindDiff.diff s false (stru x) (stru y)
  use : ∀ c x i j, k.use c x i j = (conf c).mask i j (stru x).atoms[i]? (stru x).atoms[j]?
  par : ∀ c, k.par c = (conf c).par
  ripples : ∀ c, k.ripples c = (conf c).p.ripples
  tails : ∀ c x, k.tails c x = (conf c).tails (stru x)
  prof : ∀ c, k.prof c = (conf c).ppf.prof
  custom : ∀ x c, k.custom x c = (c, false)
  cache : ∀ c x, ∃ dflt inv, k.cache c x = cacheOf (conf c).lookup dflt inv (sitesOf (stru x))
  cacheSame : ∀ c c' x, (conf c).lookup = (conf c').lookup → (conf c).mask = (conf c').mask → k.cache c x = k.cache c' x
  gen : ∀ c x (l : Limits), ∃ gen, (geom (stru x)).IsGen (l.clo * (conf c).p.rstep) (l.chi * (conf c).p.rstep) gen ∧
    ∀ i sel, i < (geom (stru x)).cnt → (∀ j ∈ sel, j < (geom (stru x)).cnt) →
      k.gen c x l i sel = Debye.readGen (geom (stru x)).mult ((conf c).bondWidth (stru x)) gen i sel
  outside : ∀ c x (l : Limits) i sel, ¬ (i < (geom (stru x)).cnt ∧ ∀ j ∈ sel, j < (geom (stru x)).cnt) →
    (k.gen c x l i sel).Perm (sel.flatMap fun j => ((vecs (geom (stru x)) (l.clo * (conf c).p.rstep) (l.chi * (conf c).p.rstep) i j).map
      fun v => (⟨V3.norm v, (conf c).pcfg.W (stru x) i j v, (geom (stru x)).mult i⟩ : Debye.Bond)).map fun b => (j, b))

/-- Displacements: isotropic, or with a tensor along the Cartesian axes; in crystals such that the operations take the displacements of each atom to
themselves (isotropic displacements, or an ellipsoid that is turned into itself), with operations that treat axes of equal reciprocal length only
alike (else C62 does not hold). -/
def Displaced (x : RStru) : Prop :=
  match x.kind with
  | .crystal L o => (∀ op ∈ o.1, PDFCache.Balanced L op) ∧
    ∀ a ∈ x.atoms, Peak.Aligned (peakSite a) ∧ GoodTensor (siteOf a).uij a.anisotropy ∧ ∀ op ∈ o.1, ∀ v, along a (rotC L op v) = along a v
  | _ => ∀ a ∈ x.atoms, Peak.Aligned (peakSite a)

/-- Width models in use: no negative constant; no negative δ (else C36 does not hold). -/
def PWM.Usual : PWM → Prop
  | .constant c => 0 ≤ c.width
  | .debyeWaller => True
  | .jeong j => 0 ≤ j.delta1 ∧ 0 ≤ j.delta2

/-- No broadening by Q resolution. -/
def PWM.Plain : PWM → Prop
  | .jeong j => j.qbroad = 0 ∧ j.qbroadSep = 0
  | _ => True

/-- Profiles in use: with a precision set in any way. -/
def PPF.Usual : PPF → Prop
  | .gauss g => g.Reach
  | .cropped c => c.Reach ∧ c.g.precision < 1

/-- The configurations and structures in use.  With broadening by Q resolution no bond may be longer than the range (else C36 does not hold: the width
allowed for is that of bonds within the range). -/
structure Usual (conf : C → LCfg) (stru : S → RStru) (k : Cls C S) : Prop where
  cls : ∀ x y, (k.diff x y).allowsFast = true → SameClass (stru x).kind (stru y).kind
  geo : ∀ x, (geom (stru x)).Ok
  rmin : ∀ c, 0 ≤ (conf c).p.rmin
  step : ∀ c, 1 / 2 ^ 26 < (conf c).p.rstep
  ext : ∀ c, 0 ≤ (conf c).p.maxext
  qmax : ∀ c, 1 / 2 ^ 26 < Fft.getQmax (conf c).p.qmax (conf c).p.rstep
  pwm : ∀ c, (conf c).pwm.Usual
  ppf : ∀ c, (conf c).ppf.Usual
  disp : ∀ x, Displaced (stru x)
  wide : ∀ c x i j, i < (stru x).atoms.length → j < (stru x).atoms.length → ∀ v, (geom (stru x)).IsVec i j v → 1 / 2 ^ 26 < V3.norm v →
    0 < pairWidth (conf c).pwm (stru x).atoms[i]? (stru x).atoms[j]? v
  short : ∀ c x i j, i < (stru x).atoms.length → j < (stru x).atoms.length → ∀ v, (geom (stru x)).IsVec i j v →
    (conf c).pwm.Plain ∨ V3.norm v ≤ (conf c).p.rmax
  mask : ∀ c i j a b, (conf c).mask i j a b = (conf c).mask j i b a
  types : ∀ c, k.hasPairMask c = false → ∀ i j i' j' a b, (conf c).mask i j a b = (conf c).mask i' j' a b

/-- The configuration calls of a history are calls of the API. -/
def Called (conf : C → LCfg) (k : Cls C S) (s : PC C S) (ops : List (POp C S)) : Prop :=
  ∀ pre f clicks r post, ops = pre ++ POp.configure f clicks r :: post →
    Api (conf (pcRun k s pre).h.cfg) (conf (f (pcRun k s pre).h.cfg)) clicks

/-! ### Widths -/

theorem sqrt_eight : Real.sqrt (8 * Real.log 2) = Peak.sigmaToFwhm := by
  unfold Peak.sigmaToFwhm
  rw [show (8 : ℝ) * Real.log 2 = 2 ^ 2 * (2 * Real.log 2) by ring, Real.sqrt_mul (by positivity), Real.sqrt_sq (by norm_num)]

theorem dw_sqrt (m : ℝ) : Peak.dwCalculate m = Real.sqrt (8 * Real.log 2) * Real.sqrt m := by
  unfold Peak.dwCalculate
  rw [sqrt_eight]
  split
  · rename_i h
    rw [Real.sqrt_eq_zero_of_nonpos h.le, mul_zero]
  · rfl

/-- What the width models calculate, for bonds that `addPairContribution` sees. -/
theorem calculate_eq (w : PWM) (r m : ℝ) (hr : Peak.dblEps ≤ r) : w.calculate r m = fwhm w r m := by
  cases w with
  | constant c => rfl
  | debyeWaller => exact dw_sqrt m
  | jeong j =>
    show j.calculate r m = _
    unfold Peak.Jeong.calculate Peak.Jeong.ratio fwhm
    rw [if_neg (not_lt.2 hr), dw_sqrt]
    dsimp only
    split
    · rfl
    · ring

theorem fwhm_nonneg (w : PWM) (hw : w.Usual) (r m : ℝ) : 0 ≤ fwhm w r m := by
  cases w with
  | constant c => exact hw
  | debyeWaller => exact mul_nonneg (Real.sqrt_nonneg _) (Real.sqrt_nonneg _)
  | jeong j =>
    unfold fwhm
    dsimp only
    split
    · exact le_refl _
    · exact add_nonneg (mul_nonneg (Real.sqrt_nonneg _) (mul_nonneg (Real.sqrt_nonneg _) (Real.sqrt_nonneg _))) (sq_nonneg _)

/-- No bond is wider than the largest width reported. -/
theorem fwhm_le (w : PWM) (hw : w.Usual) (sites : List Peak.Site) (r m rmin rmax : ℝ) (hr : 1 / 2 ^ 26 < r)
    (hq : w.Plain ∨ r ≤ rmax) (hm : m ≤ 2 * Peak.maxUii sites) : fwhm w r m ≤ w.maxWidth sites rmin rmax := by
  have hdw : Peak.dwCalculate m ≤ Peak.dwMaxWidth sites := by
    have h := Peak.dw_le m (Peak.maxUii sites) 1 zero_le_one (by rwa [one_mul])
    rw [Real.sqrt_one, one_mul] at h
    exact h
  have hmax := Peak.dwMax_nonneg sites
  cases w with
  | constant c => exact le_refl _
  | debyeWaller =>
    show Real.sqrt (8 * Real.log 2) * Real.sqrt m ≤ Peak.dwMaxWidth sites
    rw [← dw_sqrt]
    exact hdw
  | jeong j =>
    obtain ⟨h1, h2⟩ := hw
    have hr0 : 0 < r := lt_trans (by norm_num) hr
    have hnn : 0 ≤ j.maxWidth sites rmin rmax := by
      unfold Peak.Jeong.maxWidth
      positivity
    unfold fwhm
    dsimp only
    split
    · exact hnn
    rw [← mul_assoc, ← dw_sqrt]
    show _ ≤ j.maxWidth sites rmin rmax
    unfold Peak.Jeong.maxWidth
    dsimp only
    rcases hq with ⟨h3, h4⟩ | hq
    · rw [h4, h3]
      simp only [zero_mul, ne_eq, OfNat.ofNat_ne_zero, not_false_eq_true, zero_pow, add_zero]
      refine mul_le_mul hdw (Real.sqrt_le_sqrt ?_) (Real.sqrt_nonneg _) hmax
      refine le_trans ?_ (le_max_left _ _)
      have a1 : 0 ≤ j.delta1 / r := div_nonneg h1 hr0.le
      have a2 : 0 ≤ j.delta2 / r ^ 2 := div_nonneg h2 (sq_nonneg r)
      linarith
    · refine add_le_add (mul_le_mul hdw (Real.sqrt_le_sqrt ?_) (Real.sqrt_nonneg _) hmax) ?_
      · refine le_trans ?_ ((le_max_right (j.ratio rmin) (j.ratio rmax)).trans (le_max_right _ _))
        unfold Peak.Jeong.ratio
        rw [if_neg (not_lt.2 (le_trans (by unfold Peak.dblEps; norm_num) (hr.le.trans hq)))]
        have a1 : j.delta1 / rmax ≤ j.delta1 / r := div_le_div_of_nonneg_left h1 hr0 hq
        have a2 : j.delta2 / rmax ^ 2 ≤ j.delta2 / r ^ 2 := div_le_div_of_nonneg_left h2 (by positivity) (pow_le_pow_left₀ hr0.le hq 2)
        have a3 : (j.qbroad * r) ^ 2 ≤ (j.qbroad * rmax) ^ 2 := by
          rw [mul_pow, mul_pow]
          exact mul_le_mul_of_nonneg_left (pow_le_pow_left₀ hr0.le hq 2) (sq_nonneg _)
        linarith
      · rw [mul_pow, mul_pow]
        exact mul_le_mul_of_nonneg_left (pow_le_pow_left₀ hr0.le hq 2) (sq_nonneg _)

theorem maxWidth_nonneg (w : PWM) (hw : w.Usual) (sites : List Peak.Site) (rmin rmax : ℝ) : 0 ≤ w.maxWidth sites rmin rmax := by
  cases w with
  | constant c => exact hw
  | debyeWaller => exact Peak.dwMax_nonneg sites
  | jeong j =>
    show 0 ≤ j.maxWidth sites rmin rmax
    unfold Peak.Jeong.maxWidth
    have := Peak.dwMax_nonneg sites
    positivity

/-! ### Displacements -/

theorem along_msd (a : Atom) (v : V3) : Peak.meanSquareDisplacement (peakSite a).U v (peakSite a).aniso = along a v := by
  unfold along peakSite
  dsimp only
  cases ha : a.anisotropy with
  | false => rfl
  | true =>
    rw [if_pos rfl]
    by_cases hv : v = V3.zero
    · subst hv
      simp [Peak.meanSquareDisplacement, Peak.quad, V3.zero, V3.dot, V3.norm]
    · exact (Peak.msd_spec _ v hv).1

theorem along_le {x : RStru} (hd : Displaced x) {a : Atom} (ha : a ∈ x.atoms) {v : V3} (hv : v ≠ V3.zero) :
    along a v ≤ Peak.maxUii (x.atoms.map peakSite) := by
  rw [← along_msd]
  refine Peak.msd_aligned _ _ (List.mem_map.2 ⟨a, ha, rfl⟩) ?_ v hv
  unfold Displaced at hd
  split at hd
  · exact (hd.2 a ha).1
  · exact hd a ha

theorem along_even (a : Atom) (v : V3) : along a (V3.sub V3.zero v) = along a v := by
  rw [← along_msd, ← along_msd, PDFCache.msd_neg]

/-- What the bond generator reports is the sum of the displacements of the two atoms along the bond. -/
theorem msd_along (x : RStru) (hg : (geom x).Ok) (hd : Displaced x) (i j : ℕ) (a b : Atom) (ha : x.atoms[i]? = some a) (hb : x.atoms[j]? = some b)
    (v : V3) (hv : (geom x).IsVec i j v) :
    bondMsd x i j ⟨j, V3.add ((geom x).anchor i) v, v, V3.norm v⟩ = along a v + along b v := by
  have key : Peak.msd (peakSiteOf x i) (peakSiteOf x j) v = along a v + along b v := by
    unfold peakSiteOf Peak.msd
    rw [ha, hb, ← along_msd, ← along_msd]
    rfl
  obtain ⟨kind, atoms⟩ := x
  cases kind with
  | atomic => exact key
  | periodic L => exact key
  | crystal L o =>
    obtain ⟨hc, hG⟩ := hg
    obtain ⟨hbal, hiso⟩ := hd
    set cr := crysOf atoms L o with hcr
    have hi : i < atoms.length := (List.getElem?_eq_some_iff.1 ha).1
    have hj : j < atoms.length := (List.getElem?_eq_some_iff.1 hb).1
    have hlen : cr.atoms.length = atoms.length := List.length_map _
    have hU : ∀ n (q : Atom), atoms[n]? = some q → (cr.atoms.map Crystal.Site.uij).getD n M3.one = (siteOf q).uij := by
      intro n q hq
      rw [hcr, List.getD_eq_getElem?_getD]
      show ((atoms.map siteOf).map Crystal.Site.uij)[n]?.getD M3.one = _
      rw [List.getElem?_map, List.getElem?_map, hq]
      rfl
    have hanis : ∀ n (q : Atom), atoms[n]? = some q → anisoOf ⟨.crystal L o, atoms⟩ n = q.anisotropy := by
      intro n q hq
      unfold anisoOf
      dsimp only
      rw [hq]
      rfl
    obtain ⟨q, hq, t, hvv⟩ := hv
    have hx : V3.add ((geom ⟨.crystal L o, atoms⟩).anchor i) v = moved cr.L q t := by
      rw [hvv]
      show V3.add ((Crystal.equivPos cr i).headD V3.zero) (V3.sub (moved cr.L q t) ((Crystal.equivPos cr i).headD V3.zero)) = moved cr.L q t
      ext <;> simp [V3.add, V3.sub]
    show cr.msd (anisoOf ⟨.crystal L o, atoms⟩) i j _ = _
    unfold Crystal.Crys.msd
    dsimp only
    rw [hx]
    congr 1
    · rw [hanis i a ha, show cr.ucartesian0 i = (siteOf a).uij from hU i a ha, ← along_msd]
      rfl
    · have h := ucartesian1_msd cr hc hG hbal (anisoOf ⟨.crystal L o, atoms⟩) (fun n hn => ?_)
        (fun n _ s => (atoms[n]?.map fun q => along q s).getD 0) (fun n hn op hop k s => ?_) j (by rw [hlen]; exact hj)
        (moved cr.L q t) ⟨q, hq, t, rfl⟩ v
      · rw [h, hb]
        rfl
      · rw [hlen] at hn
        rw [hU n _ (List.getElem?_eq_getElem hn), hanis n _ (List.getElem?_eq_getElem hn)]
        exact (hiso _ (List.getElem_mem hn)).2.1
      · rw [hlen] at hn
        rw [hU n _ (List.getElem?_eq_getElem hn), hanis n _ (List.getElem?_eq_getElem hn)]
        dsimp only
        rw [List.getElem?_eq_getElem hn]
        exact ((hiso _ (List.getElem_mem hn)).2.2 op hop s).trans (along_msd _ _).symm

theorem dblEps_le {r : ℝ} (h : 1 / 2 ^ 26 < r) : Peak.dblEps ≤ r := by
  refine le_trans ?_ h.le
  unfold Peak.dblEps
  norm_num

theorem atom_at {l : List Atom} {i : ℕ} (h : i < l.length) : l[i]? = some l[i] := List.getElem?_eq_getElem h

/-- The widths the calculator gets are those of the specification. -/
theorem widths (c : LCfg) (x : RStru) (hg : (geom x).Ok) (hd : Displaced x) :
    Debye.WidthIs (geom x) (c.bondWidth x) (c.pcfg.W x) := by
  intro i hi j hj v hv hn
  rw [geom_cnt] at hi hj
  show c.pwm.calculate (V3.norm v) (bondMsd x i j _) = pairWidth c.pwm x.atoms[i]? x.atoms[j]? v
  rw [msd_along x hg hd i j _ _ (atom_at hi) (atom_at hj) v hv, atom_at hi, atom_at hj, calculate_eq _ _ _ (dblEps_le hn)]
  rfl

theorem pairWidth_even (w : PWM) (a b : Option Atom) (v : V3) : pairWidth w a b v = pairWidth w b a (V3.sub V3.zero v) := by
  cases a with
  | none => cases b <;> rfl
  | some a =>
    cases b with
    | none => rfl
    | some b =>
      show fwhm w (V3.norm v) _ = fwhm w (V3.norm (V3.sub V3.zero v)) _
      rw [along_even, along_even, PDFCache.norm_zero_sub, add_comm]

theorem widths_reciprocal (c : LCfg) (x : RStru) (hg : (geom x).Ok) (hd : Displaced x) (lo hi : ℝ) :
    Debye.Reciprocal (geom x) lo hi (c.pcfg.W x) := by
  obtain ⟨kind, atoms⟩ := x
  cases kind with
  | atomic => exact Debye.reciprocal_even _ trivial lo hi _ fun i j v => pairWidth_even _ _ _ v
  | periodic L => exact Debye.reciprocal_even _ trivial lo hi _ fun i j v => pairWidth_even _ _ _ v
  | crystal L o =>
    obtain ⟨hc, hG⟩ := hg
    have hrot : ∀ op ∈ o.1, ∀ (i j : ℕ) (v : V3), pairWidth c.pwm atoms[i]? atoms[j]? (rotC L op v) = pairWidth c.pwm atoms[i]? atoms[j]? v := by
      intro op hop i j v
      cases ha : atoms[i]? with
      | none => cases atoms[j]? <;> rfl
      | some a =>
        cases hb : atoms[j]? with
        | none => rfl
        | some b =>
          show fwhm c.pwm (V3.norm (rotC L op v)) (along a (rotC L op v) + along b (rotC L op v)) = fwhm c.pwm (V3.norm v) (along a v + along b v)
          rw [(hd.2 a (List.mem_of_getElem? ha)).2.2 op hop, (hd.2 b (List.mem_of_getElem? hb)).2.2 op hop, show V3.norm (rotC L op v) = V3.norm v from rotC_norm hc.lat hG op hop v]
    have h := Debye.reciprocal_crystal (crysOf atoms L o) hc lo hi (fun i j p x => pairWidth c.pwm atoms[i]? atoms[j]? (V3.sub x p))
      (spaceGroup_sym _ hc hG _ (fun op hop k i _ j _ p _ x _ => by rw [move_sub]; exact hrot op hop i j _)
        (fun i _ j _ p _ x _ => by rw [pairWidth_even, ← sub_zero_sub]))
    intro φ i j h1 h2
    have e : ∀ i, (fun v => c.pcfg.W ⟨.crystal L o, atoms⟩ i j v) = fun v => pairWidth c.pwm atoms[i]? atoms[j]?
        (V3.sub (V3.add ((Crystal.equivPos (crysOf atoms L o) i).headD V3.zero) v) ((Crystal.equivPos (crysOf atoms L o) i).headD V3.zero)) := by
      intro i
      funext v
      show pairWidth c.pwm atoms[i]? atoms[j]? v = _
      congr 1
      ext <;> simp [V3.add, V3.sub]
    have e' : ∀ j, (fun v => c.pcfg.W ⟨.crystal L o, atoms⟩ j i v) = fun v => pairWidth c.pwm atoms[j]? atoms[i]?
        (V3.sub (V3.add ((Crystal.equivPos (crysOf atoms L o) j).headD V3.zero) v) ((Crystal.equivPos (crysOf atoms L o) j).headD V3.zero)) := by
      intro j
      funext v
      show pairWidth c.pwm atoms[j]? atoms[i]? v = _
      congr 1
      ext <;> simp [V3.add, V3.sub]
    have hh := h φ i j h1 h2
    simp only [← fun v => congrFun (e i) v, ← fun v => congrFun (e' j) v] at hh
    exact hh

theorem pairWidth_nonneg (w : PWM) (hw : w.Usual) (a b : Option Atom) (v : V3) : 0 ≤ pairWidth w a b v := by
  cases a with
  | none => cases b <;> exact le_refl _
  | some a =>
    cases b with
    | none => exact le_refl _
    | some b => exact fwhm_nonneg w hw _ _

/-! ### Profiles -/

theorem PPF.Usual.reach {f : PPF} (h : f.Usual) : ∃ g : Peak.Gauss, g.Reach ∧ f.prof.lo = g.lo ∧ f.prof.hi = g.hi := by
  cases f with
  | gauss g => exact ⟨g, h, rfl, rfl⟩
  | cropped c =>
    obtain ⟨⟨l, hl⟩, -⟩ := h
    refine ⟨c.g, ?_, rfl, rfl⟩
    have key : ∀ (l : List ℝ) (d : Peak.Cropped), d.g.Reach → (l.foldl Peak.Cropped.setPrecision d).g.Reach := by
      intro l
      induction l with
      | nil => intro d h; exact h
      | cons a t ih =>
        intro d h
        refine ih _ ?_
        obtain ⟨m, hm⟩ := h
        have e : (d.setPrecision a).g = d.g.setPrecision a := by
          unfold Peak.Cropped.setPrecision
          dsimp only
          split <;> rfl
        exact ⟨m ++ [a], by rw [e, hm, List.foldl_append]; rfl⟩
    rw [hl]
    refine key l _ ⟨[Peak.Gauss.new.precision], ?_⟩
    unfold Peak.Cropped.new Peak.Cropped.setPrecision
    dsimp only
    split <;> rfl

/-- Peaks do not reach beyond the tails. -/
theorem tails_bound (c : LCfg) (hw : c.pwm.Usual) (hf : c.ppf.Usual) (x : RStru) (hd : Displaced x) (i j : ℕ) (hi : i < x.atoms.length)
    (hj : j < x.atoms.length) (v : V3) (hv : 1 / 2 ^ 26 < V3.norm v) (hq : c.pwm.Plain ∨ V3.norm v ≤ c.p.rmax) :
    -c.tails x ≤ c.ppf.prof.lo (c.pcfg.W x i j v) ∧ c.ppf.prof.hi (c.pcfg.W x i j v) ≤ c.tails x := by
  have hv0 : v ≠ V3.zero := by
    rintro rfl
    have : V3.norm V3.zero = 0 := by simp [V3.norm, V3.zero, V3.dot]
    rw [this] at hv
    exact absurd hv (by norm_num)
  have hle : c.pcfg.W x i j v ≤ c.pwm.maxWidth (x.atoms.map peakSite) c.p.rmin c.p.rmax := by
    show pairWidth c.pwm x.atoms[i]? x.atoms[j]? v ≤ _
    rw [atom_at hi, atom_at hj]
    refine fwhm_le _ hw _ _ _ _ _ hv hq ?_
    have h1 := along_le hd (List.getElem_mem hi) hv0
    have h2 := along_le hd (List.getElem_mem hj) hv0
    linarith
  obtain ⟨g, hg, e1, e2⟩ := hf.reach
  obtain ⟨m1, m2⟩ := Peak.hi_mono g hg hle
  unfold LCfg.tails Peak.extFromPeakTails
  rw [e1, e2]
  unfold Peak.Gauss.lo
  have a1 := le_abs_self (g.hi (c.pwm.maxWidth (x.atoms.map peakSite) c.p.rmin c.p.rmax))
  have a2 := le_max_right |-1 * g.hi (c.pwm.maxWidth (x.atoms.map peakSite) c.p.rmin c.p.rmax)| |g.hi (c.pwm.maxWidth (x.atoms.map peakSite) c.p.rmin c.p.rmax)|
  constructor <;> linarith

theorem tails_nonneg (c : LCfg) (x : RStru) : 0 ≤ c.tails x := le_trans (abs_nonneg _) (le_max_left _ _)

theorem ripples_nonneg (p : Setters.P) : 0 ≤ p.ripples := by
  unfold Setters.P.ripples
  dsimp only
  split
  · rename_i h
    have h1 : (0 : ℝ) < Fft.getQmax p.qmax p.rstep := by
      have := h.1
      have he : (0 : ℝ) < eps := eps_pos
      linarith
    have := Real.pi_pos
    positivity
  · exact le_refl _

/-- The profiles of the library are those of the specification. -/
theorem gauss_normal (x w : ℝ) (hw : 0 < w) : Peak.gaussY x w = normal (w / Real.sqrt (8 * Real.log 2)) x := by
  have hl := Peak.log2_pos
  have hs : 0 < Real.sqrt (8 * Real.log 2) := Real.sqrt_pos.2 (by linarith)
  rw [Peak.gauss_eq x w hw]
  unfold normal
  have e1 : -(x / (w / Real.sqrt (8 * Real.log 2))) ^ 2 / 2 = -(4 * Real.log 2 / w ^ 2) * x ^ 2 := by
    rw [div_div_eq_mul_div, div_pow, mul_pow, Real.sq_sqrt (by linarith)]
    field_simp
    ring
  have e2 : 2 * Real.sqrt (Real.log 2 / Real.pi) / w = 1 / (w / Real.sqrt (8 * Real.log 2) * Real.sqrt (2 * Real.pi)) := by
    have hp := Real.pi_pos
    have h2 : Real.sqrt (8 * Real.log 2) = 2 * (Real.sqrt 2 * Real.sqrt (Real.log 2)) := by
      rw [sqrt_eight]
      unfold Peak.sigmaToFwhm
      rw [Real.sqrt_mul (by norm_num)]
    rw [h2, Real.sqrt_div hl.le, Real.sqrt_mul (by norm_num) Real.pi]
    have := Real.sqrt_pos.2 hp
    have := Real.sqrt_pos.2 (show (0 : ℝ) < 2 by norm_num)
    field_simp
  rw [e1, e2]
  ring

theorem exp_gt (p x w : ℝ) (hp : 0 < p) (h1 : p < 1) (hw : 0 < w) :
    p < Real.exp (-(x / (w / Real.sqrt (8 * Real.log 2))) ^ 2 / 2) ↔ |x| < Peak.bound p * w := by
  have hl := Peak.log2_pos
  have hs : 0 < Real.sqrt (8 * Real.log 2) := Real.sqrt_pos.2 (by linarith)
  have hb := Peak.bound_nonneg p
  have hsq := Peak.bound_sq p hp h1
  have e1 : -(x / (w / Real.sqrt (8 * Real.log 2))) ^ 2 / 2 = -(4 * Real.log 2) * (x / w) ^ 2 := by
    rw [div_div_eq_mul_div, div_pow, mul_pow, Real.sq_sqrt (by linarith)]
    field_simp
    ring
  rw [e1, ← Real.log_lt_iff_lt_exp hp, ← div_lt_iff₀ hw, ← abs_of_pos hw, ← abs_div, abs_of_pos hw, ← abs_of_nonneg hb, ← sq_lt_sq]
  constructor
  · intro h
    nlinarith
  · intro h
    nlinarith

theorem prof_shape (f : PPF) (hf : f.Usual) (x w : ℝ) (hw : 0 < w) : f.prof.y x w = shape f x w := by
  cases f with
  | gauss g => exact gauss_normal x w hw
  | cropped c =>
    obtain ⟨hc, h1⟩ := hf
    obtain ⟨hh, hp, hs⟩ := Peak.cropped_reach c hc
    obtain ⟨s1, s2, -, -⟩ := Peak.cropped_spec c hc w hw
    have hhi : c.g.hi w = Peak.bound c.g.precision * w := by
      unfold Peak.Gauss.hi
      rw [if_neg (not_le.2 hw), hh]
    show (c.y x w).getD 0 = shape (.cropped c) x w
    unfold shape
    dsimp only
    by_cases hx : |x| < c.g.hi w
    · rw [s2 x hx, if_pos ((exp_gt _ x w hp h1 hw).2 (by rwa [← hhi])), hs, if_pos h1, gauss_normal x w hw]
      show 1 / _ * _ = _
      ring
    · rw [s1 x (not_lt.1 hx), if_neg fun y => hx (by rw [hhi]; exact (exp_gt _ x w hp h1 hw).1 y)]
      rfl

theorem prof_bounds (f : PPF) (hf : f.Usual) (w : ℝ) (hw : 0 < w) : f.prof.lo w = -extent f w ∧ f.prof.hi w = extent f w := by
  have key : ∀ g : Peak.Gauss, g.half = Peak.bound g.precision → g.hi w =
      open Classical in if g.precision < 1 then w * Real.sqrt (-Real.log g.precision / (4 * Real.log 2)) else 0 := by
    intro g hg
    unfold Peak.Gauss.hi
    rw [if_neg (not_le.2 hw), hg]
    unfold Peak.bound
    by_cases h : g.precision < 1
    · rw [if_pos h, if_pos h, mul_comm]
    · rw [if_neg h, if_neg h, zero_mul]
  cases f with
  | gauss g =>
    have h := key g (Peak.reach_spec g hf).1
    exact ⟨by show -1 * g.hi w = _; rw [h, neg_one_mul]; rfl, h⟩
  | cropped c =>
    have h := key c.g (Peak.cropped_reach c hf.1).1
    exact ⟨by show -1 * c.g.hi w = _; rw [h, neg_one_mul]; rfl, h⟩

/-- The cropped profile of the library is zero outside of its bounds. -/
theorem cropped_prof (c : Peak.Cropped) (h : (PPF.cropped c).Usual) : Cropped (PPF.cropped c).prof := by
  intro w hw x hx
  show (c.y x w).getD 0 = 0
  rcases hw.eq_or_lt with rfl | hw
  · unfold Peak.Cropped.y
    rw [if_pos rfl]
    split <;> rfl
  · refine (congrArg (fun o => Option.getD o 0) ((Peak.cropped_spec c h.1 w hw).1 x ?_)).trans rfl
    rcases hx with hx | hx
    · change x ≤ -1 * c.g.hi w at hx
      exact le_trans (by linarith) (neg_le_abs x)
    · exact le_trans hx (le_abs_self x)

/-! ### Theorems -/

theorem library_calculator {s : Sorter} {conf : C → LCfg} {stru : S → RStru} {k : Cls C S} (hk : IsLibraryCalculator s conf stru k)
    (hu : Usual conf stru k) : IsPDFCalculator s (fun c => (conf c).pcfg) stru k := by
  refine ⟨hk.count, hk.empty, hk.diff, hk.use, hk.par, hk.ripples, hk.prof, hk.custom, hk.cache, fun c x l => ?_, hk.outside⟩
  obtain ⟨gen, h1, h2⟩ := hk.gen c x l
  exact ⟨gen, (conf c).bondWidth (stru x), h1, widths (conf c) (stru x) (hu.geo x) (hu.disp x), h2⟩

theorem library_regular {s : Sorter} {conf : C → LCfg} {stru : S → RStru} {k : Cls C S} (hk : IsLibraryCalculator s conf stru k)
    (hu : Usual conf stru k) : Regular (fun c => (conf c).pcfg) stru k := by
  refine ⟨hu.cls, hu.geo, fun c x => ⟨hu.rmin c, hu.step c, hu.ext c, ripples_nonneg _, ?_⟩, fun c x i j hi hj v hvec hn => ⟨?_, ?_⟩,
    fun c x lo hi => widths_reciprocal _ _ (hu.geo x) (hu.disp x) lo hi, hu.mask, hu.types⟩
  · rw [hk.tails]
    exact tails_nonneg _ _
  · exact pairWidth_nonneg _ (hu.pwm c) _ _ _
  · rw [hk.tails]
    exact tails_bound (conf c) (hu.pwm c) (hu.ppf c) (stru x) (hu.disp x) i j hi hj v hn (hu.short c x i j hi hj v hvec)

/-- The sum over the peaks of the specification. -/
theorem peak_sum {s : Sorter} {conf : C → LCfg} {stru : S → RStru} {k : Cls C S} (hk : IsLibraryCalculator s conf stru k) (hu : Usual conf stru k)
    (c : C) (x : S) (t r : ℝ) :
    struRDF (conf c).pcfg (stru x) (counted (conf c).pcfg t fun w v => pairTerm (conf c).ppf.prof.y 1 w v r) =
      struRDF (conf c).pcfg (stru x) (counted (conf c).pcfg t fun w v => peakTerm (conf c).ppf r w v) := by
  refine struRDF_congr _ _ _ _ fun i hi j hj v hv => ?_
  unfold counted pairTerm peakTerm
  dsimp only
  by_cases hn : 1 / 2 ^ 26 < V3.norm v
  · have hw : 0 < (conf c).pcfg.W (stru x) i j v := hu.wide c x i j hi hj v hv hn
    rw [if_pos hn, if_pos hn, one_mul, prof_shape _ (hu.ppf c) _ _ hw]
  · rw [if_neg hn, if_neg hn]

/-- The peaks as drawn. -/
theorem drawn_sum {s : Sorter} {conf : C → LCfg} {stru : S → RStru} {k : Cls C S} (hk : IsLibraryCalculator s conf stru k) (hu : Usual conf stru k)
    (c : C) (x : S) (t : ℝ) (n : ℤ) :
    struRDF (conf c).pcfg (stru x) (counted (conf c).pcfg t (drawn (conf c).ppf.prof (conf c).p.rstep n)) =
      struRDF (conf c).pcfg (stru x) (counted (conf c).pcfg t (drawnTerm (conf c).ppf (conf c).p.rstep n)) := by
  refine struRDF_congr _ _ _ _ fun i hi j hj v hv => ?_
  unfold counted drawn drawnTerm
  by_cases hn : 1 / 2 ^ 26 < V3.norm v
  · have hw : 0 < (conf c).pcfg.W (stru x) i j v := hu.wide c x i j hi hj v hv hn
    rw [prof_shape _ (hu.ppf c) _ _ hw]
    obtain ⟨e1, e2⟩ := prof_bounds _ (hu.ppf c) _ hw
    rw [e1, e2]
    rfl
  · have n1 : ¬ (1 / 2 ^ 26 < V3.norm v ∧ ⌊(V3.norm v + (conf c).ppf.prof.lo ((conf c).pcfg.W (stru x) i j v)) / (conf c).p.rstep⌋ ≤ n ∧
        n ≤ ⌊(V3.norm v + (conf c).ppf.prof.hi ((conf c).pcfg.W (stru x) i j v)) / (conf c).p.rstep⌋) := fun y => hn y.1
    have n2 : ¬ (1 / 2 ^ 26 < V3.norm v ∧ ⌊(V3.norm v - extent (conf c).ppf ((conf c).pcfg.W (stru x) i j v)) / (conf c).p.rstep⌋ ≤ n ∧
        n ≤ ⌊(V3.norm v + extent (conf c).ppf ((conf c).pcfg.W (stru x) i j v)) / (conf c).p.rstep⌋) := fun y => hn y.1
    rw [if_neg n1, if_neg n2]

/-- `setPeakProfileByType` makes a profile of the type, with the precision of the last one, that may be used in its place. -/
theorem switch_spec (f : PPF) (hf : f.Usual) (t : Bool) :
    (f.switchTo t).precision = f.precision ∧ ((∃ c, f.switchTo t = .cropped c) ↔ t = true) ∧ (f.precision < 1 → (f.switchTo t).Usual) := by
  have hlow : Peak.dblEps ≤ f.precision := by
    cases f with
    | gauss g =>
      obtain ⟨l, rfl⟩ := hf
      exact (Peak.precision_history l 0).2.2.1
    | cropped c =>
      obtain ⟨⟨l, rfl⟩, -⟩ := hf
      have one : ∀ (c : Peak.Cropped) (eps : ℝ), (c.setPrecision eps).g.precision = max eps Peak.dblEps := by
        intro c eps
        unfold Peak.Cropped.setPrecision
        dsimp only
        split <;> exact (Peak.set_spec c.g eps).1
      have hall : ∀ (l : List ℝ) (c : Peak.Cropped), Peak.dblEps ≤ c.g.precision →
          Peak.dblEps ≤ (l.foldl Peak.Cropped.setPrecision c).g.precision := by
        intro l
        induction l with
        | nil => intro c h; exact h
        | cons a l ih =>
          intro c _
          refine ih _ ?_
          rw [one]
          exact le_max_right _ _
      refine hall l _ ?_
      unfold Peak.Cropped.new
      rw [one]
      exact le_max_right _ _
  have hmax : max f.precision Peak.dblEps = f.precision := max_eq_left hlow
  cases t with
  | false =>
    refine ⟨?_, ⟨fun ⟨c, hc⟩ => (by cases hc), fun h => (by cases h)⟩, fun _ => ⟨[f.precision], rfl⟩⟩
    show (Peak.Gauss.new.setPrecision f.precision).precision = _
    rw [(Peak.set_spec _ _).1, hmax]
  | true =>
    have e : (f.switchTo true).precision = f.precision := by
      show (Peak.Cropped.new.setPrecision f.precision).g.precision = _
      have : (Peak.Cropped.new.setPrecision f.precision).g = Peak.Cropped.new.g.setPrecision f.precision := by
        unfold Peak.Cropped.setPrecision
        dsimp only
        split <;> rfl
      rw [this, (Peak.set_spec _ _).1, hmax]
    refine ⟨e, ⟨fun _ => rfl, fun _ => ⟨_, rfl⟩⟩, fun h => ⟨⟨[f.precision], rfl⟩, ?_⟩⟩
    show (f.switchTo true).precision < 1
    rw [e]
    exact h

/-- A profile whose ticker does not click is as before. -/
theorem precision_same (f : PPF) (hf : f.Usual) (eps : ℝ) (h : (f.setPrecision eps).clicks = f.clicks) : f.setPrecision eps = f := by
  have key : ∀ g : Peak.Gauss, g.half = Peak.bound g.precision → (g.setPrecision eps).clicks = g.clicks → g.setPrecision eps = g := by
    intro g hg h
    obtain ⟨h1, h2, h3⟩ := Peak.set_spec g eps
    have hp : g.precision = max eps Peak.dblEps := by
      by_contra hn
      rw [if_neg hn, h] at h3
      omega
    rw [← hp] at h1 h2
    rw [← hg] at h2
    generalize g.setPrecision eps = g' at *
    cases g
    cases g'
    dsimp only at *
    rw [h, h1, h2]
  cases f with
  | gauss g => exact congrArg PPF.gauss (key g (Peak.reach_spec g hf).1 h)
  | cropped c =>
    obtain ⟨e1, -, e3⟩ := Peak.cropped_reach c hf.1
    have hg : c.g.setPrecision eps = c.g := by
      refine key c.g e1 (Eq.trans ?_ h)
      show _ = (c.setPrecision eps).g.clicks
      unfold Peak.Cropped.setPrecision
      dsimp only
      split <;> rfl
    show PPF.cropped (c.setPrecision eps) = .cropped c
    congr 1
    unfold Peak.Cropped.setPrecision
    rw [hg]
    obtain ⟨g, sc⟩ := c
    dsimp only at *
    rw [if_pos hf.2] at e3
    rw [if_pos hf.2, e3]

/-- Calls of the API that do not click need no click. -/
theorem api_quiet {s : Sorter} {conf : C → LCfg} {stru : S → RStru} {k : Cls C S} (hk : IsLibraryCalculator s conf stru k) (hu : Usual conf stru k)
    (c c' : C) (h : Api (conf c) (conf c') false) : Quiet (fun c => (conf c).pcfg) k c c' := by
  have hsame : conf c' = conf c → Quiet (fun c => (conf c).pcfg) k c c' := fun e =>
    ⟨by rw [e], by rw [e], fun x => hk.cacheSame c' c x (by rw [e]) (by rw [e])⟩
  generalize hd : conf c' = d at h
  generalize hb : false = b at h
  generalize hcc : conf c = cc at h
  cases h with
  | set op p' hp =>
    have hclick : p'.clicks = (conf c).p.clicks := by
      rw [hcc]
      by_contra hn
      rw [bne_iff_ne.2 hn] at hb
      exact absurd hb (by decide)
    rw [← hcc] at hp hd
    refine setter_quiet (fun c => (conf c).pcfg) k (conf c).p p' op hp hclick (hu.qmax c) c c c' ⟨rfl, fun _ => rfl⟩
      ⟨by dsimp only; rw [hd]; rfl, fun x => hk.cacheSame c' c x (by rw [hd]) (by rw [hd])⟩
  | rejected op p' hp =>
    have e : p' = cc.p := by
      obtain ⟨e1, e2⟩ := Setters.p_setters cc.p op
      by_cases hacc : op.Accepted
      · obtain ⟨q, hq, -⟩ := e2 hacc
        rw [hq] at hp
        exact absurd hp (by simp)
      · rw [e1 hacc] at hp
        injection hp with hp
        exact hp.symm
    refine hsame ?_
    rw [hd, hcc, e]
  | width w => exact absurd hb (by decide)
  | profile f => exact absurd hb (by decide)
  | profileByType t => exact absurd hb (by decide)
  | precision eps =>
    refine hsame ?_
    have hcl : (cc.ppf.setPrecision eps).clicks = cc.ppf.clicks := by
      by_contra hn
      rw [bne_iff_ne.2 hn] at hb
      exact absurd hb (by decide)
    have hppf : cc.ppf.Usual := by rw [← hcc]; exact hu.ppf c
    rw [hd, hcc, precision_same _ hppf eps hcl]
  | factors l => exact absurd hb (by decide)
  | masks m => exact absurd hb (by decide)
  | same => exact hsame (by rw [hd, hcc])

theorem called_proper {s : Sorter} {conf : C → LCfg} {stru : S → RStru} {k : Cls C S} (hk : IsLibraryCalculator s conf stru k) (hu : Usual conf stru k)
    (st : PC C S) (ops : List (POp C S)) (h : Called conf k st ops) : Proper (Quiet (fun c => (conf c).pcfg) k) k st ops :=
  fun pre f r post e => api_quiet hk hu _ _ (h pre f false r post e)

/-- **C90**. After any history of evaluations, configuration calls of the API and `setStructure` calls, the RDF of a calculator with a profile and any of the
peak width models of the library is, at the grid points looked at, the sum over the atoms of one cell and all atoms of
normal distributions drawn up to the precision, with the widths that the model gives for the displacements of the two atoms along the bond. -/
theorem library_rdf_partial (s : Sorter) (hs : SortSpec s) (conf : C → LCfg) (stru : S → RStru) (k : Cls C S) (hk : IsLibraryCalculator s conf stru k)
    (hu : Usual conf stru k) (c : C) (e : S) (ops : List (POp C S)) (ha : Called conf k (pcInit k c e 0 1) ops)
    (ht : taintAfter k.control (pcInit k c e 0 1).h false (ops.map POp.op) = false) (x : S) :
    let r := pcEval k (pcRun k (pcInit k c e 0 1) ops) x
    let cf := conf r.h.cfg
    ∃ z, getRDF k r = some z ∧ z.length = (rgrid cf.p.rmin cf.p.rmax cf.p.rstep).length ∧
      ∀ (m : ℕ) (n : ℤ), (rgrid cf.p.rmin cf.p.rmax cf.p.rstep)[m]? = some ((n : ℝ) * cf.p.rstep) →
        (cf.p.rmin - cf.p.ripples ≤ 0 ∨ cf.p.rmin - cf.p.ripples + cf.p.rstep ≤ (n : ℝ) * cf.p.rstep) →
        ((∃ g, cf.ppf = .cropped g) ∨ ((n : ℝ) + 1) * cf.p.rstep ≤ cf.p.rmax + cf.p.ripples) →
        z[m]? = some (struRDF cf.pcfg (stru x) (counted cf.pcfg (cf.tails (stru x)) (drawnTerm cf.ppf cf.p.rstep n))) := by
  intro r cf
  obtain ⟨z, h1, h2, h3⟩ := rdf_history s hs _ stru k (library_calculator hk hu) (library_regular hk hu) c e ops (called_proper hk hu _ _ ha) ht x
  refine ⟨z, h1, h2, fun m n hm hn hup => ?_⟩
  have hseen : Seen cf.pcfg n := by
    refine ⟨hn, ?_⟩
    rcases hup with ⟨g, hg⟩ | hup
    · right
      show Cropped cf.ppf.prof
      have h := hu.ppf r.h.cfg
      rw [show (conf r.h.cfg).ppf = .cropped g from hg] at h
      rw [hg]
      exact cropped_prof g h
    · exact Or.inl hup
  rw [h3 m n hm hseen, ← drawn_sum hk hu, hk.tails]
  rfl

/-- **C90** for the cropped profile: whole peaks, at every grid point except within one step of the lower end. -/
theorem library_rdf_cropped_partial (s : Sorter) (hs : SortSpec s) (conf : C → LCfg) (stru : S → RStru) (k : Cls C S) (hk : IsLibraryCalculator s conf stru k)
    (hu : Usual conf stru k) (c : C) (e : S) (ops : List (POp C S)) (ha : Called conf k (pcInit k c e 0 1) ops)
    (ht : taintAfter k.control (pcInit k c e 0 1).h false (ops.map POp.op) = false) (x : S) :
    let r := pcEval k (pcRun k (pcInit k c e 0 1) ops) x
    let cf := conf r.h.cfg
    (∃ g, cf.ppf = .cropped g) →
    ∃ z, getRDF k r = some z ∧ z.length = (rgrid cf.p.rmin cf.p.rmax cf.p.rstep).length ∧
      ∀ (m : ℕ) (n : ℤ), (rgrid cf.p.rmin cf.p.rmax cf.p.rstep)[m]? = some ((n : ℝ) * cf.p.rstep) →
        (cf.p.rmin - cf.p.ripples ≤ 0 ∨ cf.p.rmin - cf.p.ripples + cf.p.rstep ≤ (n : ℝ) * cf.p.rstep) →
        z[m]? = some (struRDF cf.pcfg (stru x) (counted cf.pcfg (cf.tails (stru x)) (peakTerm cf.ppf ((n : ℝ) * cf.p.rstep)))) := by
  intro r cf hcr
  have hc : Cropped (cf.pcfg).prof := by
    obtain ⟨g, hg⟩ := hcr
    show Cropped cf.ppf.prof
    have h := hu.ppf r.h.cfg
    rw [show (conf r.h.cfg).ppf = .cropped g from hg] at h
    rw [hg]
    exact cropped_prof g h
  obtain ⟨z, h1, h2, h3⟩ := rdf_history_cropped s hs _ stru k (library_calculator hk hu) (library_regular hk hu) c e ops (called_proper hk hu _ _ ha) ht x hc
  refine ⟨z, h1, h2, fun m n hm hn => ?_⟩
  rw [h3 m n hm hn, ← peak_sum hk hu, hk.tails]
  rfl

/-- **C90**, output. G(r) and F(Q) of such a calculator with the cropped profile. -/
theorem library_pdf_partial (s : Sorter) (hs : SortSpec s) (conf : C → LCfg) (stru : S → RStru) (k : Cls C S) (hk : IsLibraryCalculator s conf stru k)
    (hu : Usual conf stru k) (m : C → S → Mask.State) (hm : Masked (fun c => (conf c).pcfg) stru k m) (c : C) (e : S)
    (b : Baseline) (ops : List (OOp C S)) (ha : Called conf k (pcInit k c e 0 1) (calls ops))
    (ht : taintAfter k.control (pcInit k c e 0 1).h false ((calls ops).map POp.op) = false) (x : S) (hpos : 0 < atoms (sitesOf (stru x)))
    (qmin qmax : ℝ) (hq : Fft.QOk qmin qmax) :
    let density := fun x => densityOf (geom (stru x)).mult (stru x)
    let r := ocEval k density (ocRun k density (ocInit k density c e b 0 1) ops) x
    let cf := conf r.pc.h.cfg
    let t := cf.tails (stru x)
    rgrid cf.p.rmin cf.p.rmax cf.p.rstep ≠ [] → 1 / 2 ^ 26 < qStep (cf.pcfg.given t) → cf.p.rmin ≤ cf.p.ripples → (∃ g, cf.ppf = .cropped g) →
    Output (cf.pcfg.given t) qmin qmax (fun n => struRDF cf.pcfg (stru x) (counted cf.pcfg t (peakTerm cf.ppf ((n : ℝ) * cf.p.rstep))) / ((n : ℝ) * cf.p.rstep) +
        baseOf cf.pcfg (stru x) (lastBase b ops) ((n : ℝ) * cf.p.rstep))
      (baseOf cf.pcfg (stru x) (lastBase b ops) 0 = 0) (getPDF k r qmin qmax) (getF k r qmax) := by
  intro density r cf t hne hres hlo hcr
  have hc : Cropped (cf.pcfg).prof := by
    obtain ⟨g, hg⟩ := hcr
    show Cropped cf.ppf.prof
    have h := hu.ppf r.pc.h.cfg
    rw [show (conf r.pc.h.cfg).ppf = .cropped g from hg] at h
    rw [hg]
    exact cropped_prof g h
  have ht' : k.tails r.pc.h.cfg x = t := hk.tails _ _
  have h := pdf_history_whole s hs _ stru k (library_calculator hk hu) (library_regular hk hu) m hm c e b ops (called_proper hk hu _ _ ha) ht x hpos qmin qmax hq
    hne (by rw [ht']; exact hres) hlo hc
  rw [ht'] at h
  refine output_congr (fun n _ _ => ?_) h
  have hp := peak_sum hk hu r.pc.h.cfg x t ((n : ℝ) * cf.p.rstep)
  exact congrArg (fun z => z / ((n : ℝ) * cf.p.rstep) + baseOf cf.pcfg (stru x) (lastBase b ops) ((n : ℝ) * cf.p.rstep)) hp

/-- **C90** in parallel. Calculators for the parts of a partition with one history, merged in any order into a calculator with the same
configuration, give the RDF of a single one. -/
theorem library_parallel_partial (s : Sorter) (hs : SortSpec s) (conf : C → LCfg) (stru : S → RStru) (k : Cls C S) (hk : IsLibraryCalculator s conf stru k)
    (hu : Usual conf stru k) (jobs : ℕ) (hjobs : 1 ≤ jobs) (c : C) (e : S) (ops : List (POp C S)) (ha : Called conf k (pcInit k c e 0 jobs) ops)
    (ht : taintAfter k.control (pcInit k c e 0 jobs).h false (ops.map POp.op) = false) (x : S) (parts : List (List ℝ))
    (hp : parts.Perm ((List.range jobs).map fun j : ℕ => (pcEval k (pcRun k (pcInit k c e j jobs) ops) x).d.value)) (m0 : PC C S)
    (hm : m0.h.cfg = (pcEval k (pcRun k (pcInit k c e 0 jobs) ops) x).h.cfg) :
    let cf := conf m0.h.cfg
    ∃ r z, mergeParts k m0 x jobs parts = some r ∧ getRDF k r = some z ∧ z.length = (rgrid cf.p.rmin cf.p.rmax cf.p.rstep).length ∧
      ∀ (m : ℕ) (n : ℤ), (rgrid cf.p.rmin cf.p.rmax cf.p.rstep)[m]? = some ((n : ℝ) * cf.p.rstep) →
        (cf.p.rmin - cf.p.ripples ≤ 0 ∨ cf.p.rmin - cf.p.ripples + cf.p.rstep ≤ (n : ℝ) * cf.p.rstep) →
        ((∃ g, cf.ppf = .cropped g) ∨ ((n : ℝ) + 1) * cf.p.rstep ≤ cf.p.rmax + cf.p.ripples) →
        z[m]? = some (struRDF cf.pcfg (stru x) (counted cf.pcfg (cf.tails (stru x)) (drawnTerm cf.ppf cf.p.rstep n))) := by
  intro cf
  obtain ⟨r, z, h0, h1, h2, h3⟩ := rdf_parallel s hs _ stru k (library_calculator hk hu) (library_regular hk hu) jobs hjobs c e ops
    (called_proper hk hu _ _ ha) ht x parts hp m0 hm
  refine ⟨r, z, h0, h1, h2, fun m n hm hn hup => ?_⟩
  have hseen : Seen cf.pcfg n := by
    refine ⟨hn, ?_⟩
    rcases hup with ⟨g, hg⟩ | hup
    · right
      show Cropped cf.ppf.prof
      have h := hu.ppf m0.h.cfg
      rw [show (conf m0.h.cfg).ppf = .cropped g from hg] at h
      rw [hg]
      exact cropped_prof g h
    · exact Or.inl hup
  rw [h3 m n hm hseen, ← drawn_sum hk hu, hk.tails]
  rfl

/-! ### A concrete case -/

/-- Two carbon atoms at the distance `d`, with displacements `u`. -/
def exPair (d u : ℚ) : RStru :=
  ⟨.atomic, [⟨"C", 0, 0, 0, 1, false, ⟨u, 0, 0, 0, u, 0, 0, 0, u⟩⟩, ⟨"C", d, 0, 0, 1, false, ⟨u, 0, 0, 0, u, 0, 0, 0, u⟩⟩]⟩

/-- The RDF of the pair of atoms, as specified, is one peak of unit weight at the distance, of the width for a mean square displacement of 2u. -/
theorem two_atoms (c : LCfg) (hf : c.lookup "C" ≠ 0) (hm : c.mask = fun _ _ _ _ => true) (d u : ℚ) (hd : 1 < d) (r : ℝ) :
    struRDF c.pcfg (exPair d u) (peakTerm c.ppf r) = shape c.ppf (r - d) (fwhm c.pwm d (2 * u)) * (r / d) := by
  have hd1 : (1 : ℝ) < (d : ℝ) := by exact_mod_cast hd
  have hn : ∀ v : V3, v.y = 0 → v.z = 0 → V3.norm v = |v.x| := by
    intro v h1 h2
    unfold V3.norm V3.dot
    rw [h1, h2]
    simp [Real.sqrt_mul_self_eq_abs]
  have e1 : V3.norm (V3.sub (posOf (exPair d u).atoms 1) (posOf (exPair d u).atoms 0)) = d := by
    rw [hn _ (by simp [exPair, posOf, atomPos, V3.sub]) (by simp [exPair, posOf, atomPos, V3.sub])]
    show |(d : ℝ) - ((0 : ℚ) : ℝ)| = d
    rw [Rat.cast_zero, sub_zero, abs_of_pos (by linarith)]
  have e2 : V3.norm (V3.sub (posOf (exPair d u).atoms 0) (posOf (exPair d u).atoms 1)) = d := by
    rw [hn _ (by simp [exPair, posOf, atomPos, V3.sub]) (by simp [exPair, posOf, atomPos, V3.sub])]
    show |((0 : ℚ) : ℝ) - (d : ℝ)| = d
    rw [Rat.cast_zero, zero_sub, abs_neg, abs_of_pos (by linarith)]
  have e0 : ∀ i, V3.norm (V3.sub (posOf (exPair d u).atoms i) (posOf (exPair d u).atoms i)) = 0 := by
    intro i
    rw [hn _ (by simp [V3.sub, exPair]) (by simp [V3.sub, exPair])]
    simp [V3.sub]
  have hsites : sitesOf (exPair d u) = [⟨"C", 1, 1⟩, ⟨"C", 1, 1⟩] := by
    simp [sitesOf, exPair, geom, Geometry.mult]
  have hat : atoms (sitesOf (exPair d u)) = 2 := by
    rw [hsites]; norm_num [atoms]
  have hav : fAverage c.pcfg.lookup (sitesOf (exPair d u)) = c.lookup "C" := by
    show fAverage c.lookup _ = _
    unfold fAverage
    rw [hat, hsites]
    simp
  have hW : ∀ i j : ℕ, i < 2 → j < 2 → ∀ v, V3.norm v = d → c.pcfg.W (exPair d u) i j v = fwhm c.pwm d (2 * u) := by
    intro i j hi hj v hv
    show pairWidth c.pwm _ _ v = _
    have ha : ∀ i < 2, ∃ a : Atom, (exPair d u).atoms[i]? = some a ∧ a.anisotropy = false ∧ a.u.u1 = u := by
      intro i hi
      interval_cases i
      · exact ⟨_, rfl, rfl, rfl⟩
      · exact ⟨_, rfl, rfl, rfl⟩
    obtain ⟨a, ha1, ha2, ha3⟩ := ha i hi
    obtain ⟨b, hb1, hb2, hb3⟩ := ha j hj
    rw [ha1, hb1]
    show fwhm c.pwm (V3.norm v) (along a v + along b v) = _
    unfold along
    rw [if_neg (by rw [ha2]; decide), if_neg (by rw [hb2]; decide), ha3, hb3, two_mul, hv]
  have hfac : ∀ i < 2, atomFactor c.pcfg (exPair d u).atoms[i]? = c.lookup "C" := by
    intro i hi
    interval_cases i <;> simp [atomFactor, exPair, LCfg.pcfg]
  have hT : ∀ w v, V3.norm v = d → peakTerm c.ppf r w v = shape c.ppf (r - d) w * (r / d) := by
    intro w v hv
    unfold peakTerm
    rw [hv, if_pos (by linarith [show (1 : ℝ) / 2 ^ 26 < 1 by norm_num])]
  have hT0 : ∀ w v, V3.norm v = 0 → peakTerm c.ppf r w v = 0 := by
    intro w v hv
    unfold peakTerm
    rw [hv, if_neg (by norm_num)]
  have hsum : ∀ i j : ℕ, i < 2 → j < 2 → ∀ F : V3 → ℝ, (geom (exPair d u)).sum i j F =
      F (V3.sub (posOf (exPair d u).atoms j) (posOf (exPair d u).atoms i)) := fun _ _ _ _ _ => rfl
  have hmask : ∀ i j a b, c.pcfg.mask i j a b = true := fun i j a b => by show c.mask i j a b = true; rw [hm]
  have hmult : ∀ i, (geom (exPair d u)).mult i = 1 := fun _ => rfl
  unfold struRDF
  rw [hat, hav]
  show (∑ i ∈ Finset.range 2, ∑ j ∈ Finset.range 2, _) / _ = _
  simp only [Finset.sum_range_succ, Finset.sum_range_zero, zero_add, hmask, if_true, hmult]
  rw [hsum 0 0 (by norm_num) (by norm_num), hsum 0 1 (by norm_num) (by norm_num), hsum 1 0 (by norm_num) (by norm_num), hsum 1 1 (by norm_num) (by norm_num),
    hT0 _ _ (e0 0), hT0 _ _ (e0 1), hT _ _ e1, hT _ _ e2, hW 0 1 (by norm_num) (by norm_num) _ e1, hW 1 0 (by norm_num) (by norm_num) _ e2,
    hfac 0 (by norm_num), hfac 1 (by norm_num)]
  push_cast
  field_simp
  ring_nf

/-! ### The hypotheses can be met -/

/-- There is such a calculator for all configurations and structures. -/
theorem library_exists (s : Sorter) (conf : C → LCfg) (stru : S → RStru) (pm : C → Bool) :
    ∃ k : Cls C S, IsLibraryCalculator s conf stru k ∧ k.hasPairMask = pm := by
  classical
  let G : C → S → Limits → Gen BondGen.Bond := fun c x l =>
    (gen_exists (geom (stru x)) (l.clo * (conf c).p.rstep) (l.chi * (conf c).p.rstep)).choose
  refine ⟨{ hasPairMask := pm
            rule := chopOuterRule
            count := fun x => (stru x).atoms.length
            isEmpty := fun x => (stru x).atoms.isEmpty
            use := fun c x i j => (conf c).mask i j (stru x).atoms[i]? (stru x).atoms[j]?
            custom := fun _ c => (c, false)
            diff := fun x y => KindDiff.diff s false (stru x) (stru y)
            par := fun c => (conf c).par
            ripples := fun c => (conf c).p.ripples
            tails := fun c x => (conf c).tails (stru x)
            prof := fun c => (conf c).ppf.prof
            cache := fun c x => cacheOf (conf c).lookup true [] (sitesOf (stru x))
            gen := fun c x l i sel => if i < (geom (stru x)).cnt ∧ ∀ j ∈ sel, j < (geom (stru x)).cnt then
                Debye.readGen (geom (stru x)).mult ((conf c).bondWidth (stru x)) (G c x l) i sel else
              sel.flatMap fun j => ((vecs (geom (stru x)) (l.clo * (conf c).p.rstep) (l.chi * (conf c).p.rstep) i j).map
                fun v => (⟨V3.norm v, (conf c).pcfg.W (stru x) i j v, (geom (stru x)).mult i⟩ : Debye.Bond)).map fun b => (j, b) }, ?_, rfl⟩
  refine ⟨fun _ => rfl, fun _ h => List.isEmpty_iff.1 h, fun _ _ => rfl, fun _ _ _ _ => rfl, fun _ => rfl, fun _ => rfl, fun _ _ => rfl, fun _ => rfl,
    fun _ _ => rfl, fun c x => ⟨true, [], rfl⟩, fun c c' x e _ => ?_, fun c x l => ?_, fun c x l i sel h => ?_⟩
  · show cacheOf (conf c).lookup true [] _ = cacheOf (conf c').lookup true [] _
    rw [e]
  · exact ⟨G c x l, (gen_exists (geom (stru x)) _ _).choose_spec, fun i sel h1 h2 => if_pos ⟨h1, h2⟩⟩
  · dsimp only
    rw [if_neg h]

/-- Debye-Waller widths and cropped peaks up to `c.1`, with Qmax 20 or 25. -/
noncomputable def exLib (c : ℝ × Bool) : LCfg :=
  ⟨⟨0, if c.2 then 20 else 25, 0, c.1, 1 / 100, 10, 0⟩, .debyeWaller, .cropped Peak.Cropped.new, fun _ => 1, fun _ _ _ _ => true⟩

/-- Structures of one class with isotropic displacements. -/
def ExStru (cls : Kind Lat Sym → Prop) (x : RStru) : Prop :=
  cls x.kind ∧ (geom x).Ok ∧ Displaced x ∧ ∀ a ∈ x.atoms, a.anisotropy = false ∧ 0 < a.u.u1

/-- The same with another width model. -/
theorem exLib_width (cls : Kind Lat Sym → Prop) (hcls : ∀ a b, cls a → cls b → SameClass a b) (g : C → ℝ × Bool) (stru : S → RStru)
    (hx : ∀ x, ExStru cls (stru x)) (k : Cls C S) (w : PWM) (hw : w.Usual)
    (hwide : ∀ x i j, i < (stru x).atoms.length → j < (stru x).atoms.length → ∀ v, (geom (stru x)).IsVec i j v → 1 / 2 ^ 26 < V3.norm v →
      0 < pairWidth w (stru x).atoms[i]? (stru x).atoms[j]? v)
    (hshort : ∀ c x i j, i < (stru x).atoms.length → j < (stru x).atoms.length → ∀ v, (geom (stru x)).IsVec i j v →
      w.Plain ∨ V3.norm v ≤ (g c).1) :
    Usual (fun c => { exLib (g c) with pwm := w }) stru k := by
  have hpi := Real.pi_gt_three
  have hlog := Peak.log2_pos
  have hprec : Peak.Cropped.new.g.precision < 1 := by
    have : Peak.Cropped.new.g.precision = max Peak.Gauss.new.precision Peak.dblEps := by
      unfold Peak.Cropped.new Peak.Cropped.setPrecision
      dsimp only
      split <;> exact (Peak.set_spec Peak.Gauss.new _).1
    rw [this, show Peak.Gauss.new.precision = max Peak.dblEps Peak.dblEps from (Peak.set_spec _ _).1]
    simp only [max_self]
    unfold Peak.dblEps
    norm_num
  have hq : ∀ c, 1 / 2 ^ 26 < Fft.getQmax (exLib c).p.qmax (exLib c).p.rstep := by
    intro c
    unfold Fft.getQmax
    rw [lt_min_iff]
    constructor
    · show (1 : ℝ) / 2 ^ 26 < if c.2 = true then 20 else 25
      split <;> norm_num
    · show (1 : ℝ) / 2 ^ 26 < Real.pi / (1 / 100)
      rw [div_div_eq_mul_div, lt_div_iff₀ (by norm_num)]
      norm_num
      linarith
  refine ⟨fun x y _ => hcls _ _ (hx x).1 (hx y).1, fun x => (hx x).2.1, fun _ => le_refl _, fun _ => by norm_num [exLib], fun _ => by norm_num [exLib],
    fun c => hq (g c), fun _ => hw, fun _ => ⟨⟨[], rfl⟩, hprec⟩, fun x => (hx x).2.2.1, fun _ => hwide, hshort, fun _ _ _ _ _ => rfl,
    fun _ _ _ _ _ _ _ _ => rfl⟩

/-- These configurations and structures are usual ones. -/
theorem exLib_usual (cls : Kind Lat Sym → Prop) (hcls : ∀ a b, cls a → cls b → SameClass a b) (g : C → ℝ × Bool) (stru : S → RStru)
    (hx : ∀ x, ExStru cls (stru x)) (k : Cls C S) : Usual (fun c => exLib (g c)) stru k := by
  refine exLib_width cls hcls g stru hx k .debyeWaller trivial ?_ (fun _ _ _ _ _ _ _ _ => Or.inl trivial)
  intro x i j hi hj v _ _
  show 0 < pairWidth .debyeWaller (stru x).atoms[i]? (stru x).atoms[j]? v
  rw [atom_at hi, atom_at hj]
  obtain ⟨a1, a2⟩ := (hx x).2.2.2 _ (List.getElem_mem hi)
  obtain ⟨b1, b2⟩ := (hx x).2.2.2 _ (List.getElem_mem hj)
  show 0 < Real.sqrt (8 * Real.log 2) * Real.sqrt (along _ v + along _ v)
  unfold along
  rw [if_neg (by rw [a1]; decide), if_neg (by rw [b1]; decide)]
  have a3 : (0 : ℝ) < ((stru x).atoms[i].u.u1 : ℝ) := by exact_mod_cast a2
  have b3 : (0 : ℝ) < ((stru x).atoms[j].u.u1 : ℝ) := by exact_mod_cast b2
  positivity

/-- The structures of any one class with isotropic displacements, evaluated with Debye-Waller widths and cropped peaks, with Qmax raised in between. -/
example (cls : Kind Lat Sym → Prop) (hcls : ∀ a b, cls a → cls b → SameClass a b) (s : Sorter) :
    ∃ k : Cls (ℝ × Bool) {x : RStru // ExStru cls x}, IsLibraryCalculator s exLib (fun x => x.1) k ∧ Usual exLib (fun x => x.1) k ∧
      (∀ c, ∃ g, (exLib c).ppf = .cropped g) ∧
      ∀ x y (jobs : ℕ), let ops : List (POp (ℝ × Bool) _) := [.eval x, .configure exLess false true, .eval y]
        Called exLib k (pcInit k (20, true) x 0 jobs) ops ∧
        taintAfter k.control (pcInit k (20, true) x 0 jobs).h false (ops.map POp.op) = false := by
  obtain ⟨k, hk, -⟩ := library_exists s exLib (fun x : {x : RStru // ExStru cls x} => x.1) (fun _ => false)
  refine ⟨k, hk, exLib_usual cls hcls _ _ (fun x => x.2) k, fun _ => ⟨_, rfl⟩, fun x y jobs => ⟨?_, ?_⟩⟩
  · intro pre f cl r post e
    obtain rfl | ⟨o, rfl⟩ : pre = [.eval x] ∨ False := by
      rcases pre with _ | ⟨o, _ | ⟨o', _ | ⟨o'', pre⟩⟩⟩
      · simp at e
      · left
        simp only [List.cons_append, List.nil_append, List.cons.injEq] at e
        rw [← e.1]
      · simp at e
      · simp at e
    simp only [List.cons_append, List.nil_append, List.cons.injEq, POp.configure.injEq] at e
    obtain ⟨-, ⟨rfl, rfl, rfl⟩, -⟩ := e
    generalize (pcRun k (pcInit k (20, true) x 0 jobs) [.eval x]).h.cfg = c
    have h := Api.set (exLib c) (.setQmax 25) (exLib (exLess c)).p ?_
    · exact h
    · have hn : Setters.throwsNegative 25 = false := by
        unfold Setters.throwsNegative
        rw [decide_eq_false]
        norm_num
      have hq2 : ¬ (25 : ℝ) < if c.2 = true then 20 else 25 := by split <;> norm_num
      simp only [Setters.pstep, hn]
      rw [if_neg (by simp), if_pos (by norm_num)]
      show Except.ok (⟨0, 25, 0, c.1, 1 / 100, 10, if (25 : ℝ) < (if c.2 = true then 20 else 25) then 0 + 1 else 0⟩ : Setters.P) = _
      rw [if_neg hq2]
      rfl
  · simp [taintAfter, taint, POp.op]

/-- Clusters of a diameter below 10 with correlated motion and broadening by Q resolution, for ranges of at least that length. -/
example (s : Sorter) :
    ∃ k : Cls {c : ℝ × Bool // 10 ≤ c.1} {x : RStru // ExStru (· = .atomic) x ∧ ∀ i j, i < x.atoms.length → j < x.atoms.length → ∀ v, (geom x).IsVec i j v →
        V3.norm v ≤ 10 ∧ (1 / 2 ^ 26 < V3.norm v → 1 ≤ V3.norm v)},
      let conf := fun c => { exLib c.1 with pwm := .jeong ⟨1 / 4, 1 / 4, 1 / 100, 1 / 100⟩ }
      IsLibraryCalculator s conf (fun x => x.1) k ∧ Usual conf (fun x => x.1) k := by
  obtain ⟨k, hk, -⟩ := library_exists s (fun c : {c : ℝ × Bool // 10 ≤ c.1} => { exLib c.1 with pwm := .jeong ⟨1 / 4, 1 / 4, 1 / 100, 1 / 100⟩ })
    (fun x : {x : RStru // ExStru (· = .atomic) x ∧ ∀ i j, i < x.atoms.length → j < x.atoms.length → ∀ v, (geom x).IsVec i j v →
        V3.norm v ≤ 10 ∧ (1 / 2 ^ 26 < V3.norm v → 1 ≤ V3.norm v)} => x.1) (fun _ => false)
  refine ⟨k, hk, exLib_width (· = .atomic) (fun a b ha hb => by rw [ha, hb]; trivial) (fun c => c.1) _ (fun x => x.2.1) k
    (.jeong ⟨1 / 4, 1 / 4, 1 / 100, 1 / 100⟩) ⟨by norm_num, by norm_num⟩ ?_
    fun c x i j hi hj v hv => Or.inr ((x.2.2 i j hi hj v hv).1.trans c.2)⟩
  intro x i j hi hj v hv hn
  have hr := (x.2.2 i j hi hj v hv).2 hn
  rw [atom_at hi, atom_at hj]
  show 0 < fwhm (.jeong ⟨1 / 4, 1 / 4, 1 / 100, 1 / 100⟩) (V3.norm v) (along x.1.atoms[i] v + along x.1.atoms[j] v)
  unfold fwhm
  have h1 : (1 / 4 : ℝ) / V3.norm v ≤ 1 / 4 := div_le_self (by norm_num) hr
  have h2 : (1 / 4 : ℝ) / V3.norm v ^ 2 ≤ 1 / 4 := div_le_self (by norm_num) (one_le_pow₀ hr)
  have h3 : (0 : ℝ) ≤ (1 / 100 * V3.norm v) ^ 2 := sq_nonneg _
  have hp : ¬ 1 - (1 / 4 : ℝ) / V3.norm v - 1 / 4 / V3.norm v ^ 2 + (1 / 100 * V3.norm v) ^ 2 ≤ 0 := by
    rw [not_le]
    linarith
  dsimp only
  rw [if_neg hp]
  have hv0 : 0 < V3.norm v := by linarith
  have h4 : 0 ≤ Real.sqrt (8 * Real.log 2) * (Real.sqrt (along x.1.atoms[i] v + along x.1.atoms[j] v) *
      Real.sqrt (1 - (1 / 4 : ℝ) / V3.norm v - 1 / 4 / V3.norm v ^ 2 + (1 / 100 * V3.norm v) ^ 2)) := by positivity
  have h5 : 0 < (1 / 100 * V3.norm v) ^ 2 := by positivity
  linarith

end Verif.PDFHist
