import Verif.Lemmas.PDFHistory
import Verif.Lemmas.KindLawful
import Verif.Lemmas.PairGeometry
import Verif.Props.DebyeSum
import Verif.Props.PDFPeriodic
import Verif.Props.Protocol
/-! C86: the RDF of a PDFCalculator after any history of evaluations and calls, serial and parallel, for the three kinds of structures. -/
set_option linter.unusedSectionVars false
namespace Verif.PDFHist
open Verif.Eval Verif.Diff Verif.KindDiff Verif.History Verif.PDFGrid Verif.PDFCache Verif.R3 Verif.Lattice Verif.Geo
open scoped BigOperators

/-! ### Specification -/

/-- What the RDF depends on besides the structure: r-range parameters, extent of termination ripples, peak profile, scattering factors,
peak widths (by the kind of structure, the two atoms and the vector between them) and masks (by sites and by atoms). -/
structure PCfg where
  par : Par ℝ
  ripples : ℝ
  prof : Prof ℝ
  lookup : String → ℝ
  width : Kind Lat Sym → Option Atom → Option Atom → V3 → ℝ
  mask : ℕ → ℕ → Option Atom → Option Atom → Bool

/-- The width of the peak for the bond `v` from site `i` to site `j`. -/
def PCfg.W (c : PCfg) (x : RStru) (i j : ℕ) (v : V3) : ℝ := c.width x.kind x.atoms[i]? x.atoms[j]? v

/-- Types, occupancies and multiplicities of the sites of a structure. -/
noncomputable def sitesOf (x : RStru) : List Debye.Site :=
  x.atoms.zipIdx.map fun p => ⟨p.1.atomtype, (p.1.occupancy : ℝ), (geom x).mult p.2⟩

/-- The factor of an atom: scattering factor of its type times occupancy. -/
noncomputable def atomFactor (c : PCfg) (a : Option Atom) : ℝ := (a.map fun a => c.lookup a.atomtype * (a.occupancy : ℝ)).getD 0

/-- The RDF made of the terms `T w v` of all bonds `v` with peak width `w`: the sum over the atoms of one cell and all atoms of the
structure, for the pairs that the mask lets through, with the factors of the two atoms, divided by N⟨f⟩². -/
noncomputable def struRDF (c : PCfg) (x : RStru) (T : ℝ → V3 → ℝ) : ℝ :=
  (∑ i ∈ Finset.range x.atoms.length, ∑ j ∈ Finset.range x.atoms.length, if c.mask i j x.atoms[i]? x.atoms[j]? = true then
    ((geom x).mult i : ℝ) * (atomFactor c x.atoms[i]? * atomFactor c x.atoms[j]? * (geom x).sum i j fun v => T (c.W x i j v) v) else 0) /
    (atoms (sitesOf x) * fAverage c.lookup (sitesOf x) ^ 2)

/-- The peak of a bond as drawn at the grid point `n·dr`: profile times r/|v| on the grid points from the one at or below the lower bound of the
peak to the last one not above its upper bound; nothing for coincident atoms. -/
noncomputable def drawn (pf : Prof ℝ) (dr : ℝ) (n : ℤ) (w : ℝ) (v : V3) : ℝ :=
  open Classical in
  if 1 / 2 ^ 26 < V3.norm v ∧ ⌊(V3.norm v + pf.lo w) / dr⌋ ≤ n ∧ n ≤ ⌊(V3.norm v + pf.hi w) / dr⌋ then
    pf.y ((n : ℝ) * dr - V3.norm v) w * ((n : ℝ) * dr / V3.norm v) else 0

/-- The profile is zero at and beyond its bounds (cropped profiles). -/
def Cropped (pf : Prof ℝ) : Prop := ∀ w, 0 ≤ w → ∀ x, (x ≤ pf.lo w ∨ pf.hi w ≤ x) → pf.y x w = 0

/-- The bonds of length `d` are within the r range extended by the maximal extension: from its first grid point to the one that ends it. -/
def Reach (c : PCfg) (d : ℝ) : Prop :=
  (⌈(c.par.rmin - c.par.maxext - 1 / 2 ^ 26) / c.par.dr⌉ : ℝ) * c.par.dr ≤ d ∧ d ≤ (⌈(c.par.rmax + c.par.maxext) / c.par.dr⌉ : ℝ) * c.par.dr

/-- The terms `T` of the bonds that are counted in a structure with peak tails `t`: all of them when ripples and tails fit into the maximal
extension, otherwise the ones within reach. -/
noncomputable def counted (c : PCfg) (t : ℝ) (T : ℝ → V3 → ℝ) (w : ℝ) (v : V3) : ℝ :=
  open Classical in if c.ripples + t ≤ c.par.maxext ∨ Reach c (V3.norm v) then T w v else 0

/-- The points of the range extended by the ripples, but not by more than the maximal extension, for a range that is not empty: multiples of the
step from the extended lower end (within the tolerance 2^-26, not below zero) to below the extended upper end. -/
def Extended (c : PCfg) (n : ℤ) : Prop :=
  rgrid c.par.rmin c.par.rmax c.par.dr ≠ [] ∧ 0 ≤ n ∧ c.par.rmin - min c.ripples c.par.maxext - 1 / 2 ^ 26 ≤ (n : ℝ) * c.par.dr ∧
  (n : ℝ) * c.par.dr < c.par.rmax + min c.ripples c.par.maxext

/-- The points the theorems speak about: not within one step of the ends of the range extended by the ripples, unless the range
starts at zero, or the profile is cropped (upper end). -/
def Seen (c : PCfg) (n : ℤ) : Prop :=
  (c.par.rmin - c.ripples ≤ 0 ∨ c.par.rmin - c.ripples + c.par.dr ≤ (n : ℝ) * c.par.dr) ∧
  (((n : ℝ) + 1) * c.par.dr ≤ c.par.rmax + c.ripples ∨ Cropped c.prof)

variable {C S : Type}

/-- `k` is the PDFCalculator for configurations `C` and structures `S`, given by `conf` and `stru`: it counts the sites, uses the differences
of C55, the masks, profile, factors and range of the configuration, and the bond generators of the structures with the limits given, from which it
reads distance, peak width and multiplicity.  Of sites that do not exist a generator may deliver anything that depends on the pair of
sites only (no evaluation selects them). -/
structure IsPDFCalculator (s : Sorter) (conf : C → PCfg) (stru : S → RStru) (k : Cls C S) : Prop where
  count : ∀ x, k.count x = (stru x).atoms.length
  empty : ∀ x, k.isEmpty x = true → (stru x).atoms = []
  diff : ∀ x y, k.diff x y = KindDiff.diff s false (stru x) (stru y)
  use : ∀ c x i j, k.use c x i j = (conf c).mask i j (stru x).atoms[i]? (stru x).atoms[j]?
  par : ∀ c, k.par c = (conf c).par
  ripples : ∀ c, k.ripples c = (conf c).ripples
  prof : ∀ c, k.prof c = (conf c).prof
  custom : ∀ x c, k.custom x c = (c, false)
  cache : ∀ c x, ∃ dflt inv, k.cache c x = cacheOf (conf c).lookup dflt inv (sitesOf (stru x))
  gen : ∀ c x (l : Limits), ∃ gen width, (geom (stru x)).IsGen (l.clo * (conf c).par.dr) (l.chi * (conf c).par.dr) gen ∧
    Debye.WidthIs (geom (stru x)) width ((conf c).W (stru x)) ∧
    ∀ i sel, i < (geom (stru x)).cnt → (∀ j ∈ sel, j < (geom (stru x)).cnt) →
      k.gen c x l i sel = Debye.readGen (geom (stru x)).mult width gen i sel
  outside : ∀ c x (l : Limits) i sel, ¬ (i < (geom (stru x)).cnt ∧ ∀ j ∈ sel, j < (geom (stru x)).cnt) →
    (k.gen c x l i sel).Perm (sel.flatMap fun j => ((vecs (geom (stru x)) (l.clo * (conf c).par.dr) (l.chi * (conf c).par.dr) i j).map
      fun v => (⟨V3.norm v, (conf c).W (stru x) i j v, (geom (stru x)).mult i⟩ : Debye.Bond)).map fun b => (j, b))

/-- The configurations and structures in use: structures with regular geometry, of one class whenever one may be reached from the other by a fast update; sensible range parameters; peaks that are not
wider than the tail extension asked for; widths that are not negative and are the same from both ends of a bond; symmetric
masks, by sites only when there is a pair mask. -/
structure Regular (conf : C → PCfg) (stru : S → RStru) (k : Cls C S) : Prop where
  cls : ∀ x y, (k.diff x y).allowsFast = true → SameClass (stru x).kind (stru y).kind
  geo : ∀ x, (geom (stru x)).Ok
  ok : ∀ c x, PDFGrid.Ok (conf c).par (conf c).ripples (k.tails c x)
  tails : ∀ c x i j, i < (stru x).atoms.length → j < (stru x).atoms.length → ∀ v, (geom (stru x)).IsVec i j v → 1 / 2 ^ 26 < V3.norm v →
    0 ≤ (conf c).W (stru x) i j v ∧ -k.tails c x ≤ (conf c).prof.lo ((conf c).W (stru x) i j v) ∧ (conf c).prof.hi ((conf c).W (stru x) i j v) ≤ k.tails c x
  recip : ∀ c x lo hi, Debye.Reciprocal (geom (stru x)) lo hi ((conf c).W (stru x))
  mask : ∀ c i j a b, (conf c).mask i j a b = (conf c).mask j i b a
  types : ∀ c, k.hasPairMask c = false → ∀ i j i' j' a b, (conf c).mask i j a b = (conf c).mask i' j' a b

/-- The changes of configuration for which no click is needed: the extent of the ripples gets smaller, everything else stays
(`setQmax` to a larger value, PDFCalculator.cpp:275-282; or no change at all). -/
structure Quiet (conf : C → PCfg) (k : Cls C S) (c c' : C) : Prop where
  same : conf c' = { conf c with ripples := (conf c').ripples }
  less : (conf c').ripples ≤ (conf c).ripples
  cache : ∀ x, k.cache c' x = k.cache c x

/-! ### Proof -/

theorem factor_atom (c : PCfg) (x : RStru) (i : ℕ) : factor c.lookup (sitesOf x) i = atomFactor c x.atoms[i]? := by
  unfold factor sitesOf atomFactor
  rw [List.map_map, List.getD_eq_getElem?_getD, List.getElem?_map, List.getElem?_zipIdx]
  cases x.atoms[i]? <;> rfl

/-- The terms `T` of the bonds within reach. -/
noncomputable def reached (c : PCfg) (T : ℝ → V3 → ℝ) (w : ℝ) (v : V3) : ℝ :=
  open Classical in if Reach c (V3.norm v) then T w v else 0

theorem counted_fits (c : PCfg) (t : ℝ) (h : c.ripples + t ≤ c.par.maxext) (T : ℝ → V3 → ℝ) : counted c t T = T := by
  funext w v
  unfold counted
  rw [if_pos (Or.inl h)]

theorem counted_not (c : PCfg) (t : ℝ) (h : ¬ c.ripples + t ≤ c.par.maxext) (T : ℝ → V3 → ℝ) : counted c t T = reached c T := by
  funext w v
  unfold counted reached
  by_cases hr : Reach c (V3.norm v)
  · rw [if_pos (Or.inr hr), if_pos hr]
  · have : ¬ (c.ripples + t ≤ c.par.maxext ∨ Reach c (V3.norm v)) := fun y => y.elim h hr
    rw [if_neg this, if_neg hr]

/-- The points at which the values are followed. -/
def Looked (c : PCfg) (n : ℤ) : Prop := Extended c n ∧ Seen c n

theorem not_empty {c : PCfg} (hne : rgrid c.par.rmin c.par.rmax c.par.dr ≠ []) :
    ¬ rminSteps c.par.rmin c.par.dr ≥ rmaxSteps c.par.rmax c.par.dr := fun hge => hne (by unfold rgrid; rw [intRange_empty hge]; rfl)

/-- The limits of the calculation when ripples and tails do not fit into the maximal extension. -/
theorem calc_rescaled {c : PCfg} {tails : ℝ} (hfit : ¬ c.ripples + tails ≤ c.par.maxext)
    (hne : rgrid c.par.rmin c.par.rmax c.par.dr ≠ []) :
    (rlimits c.par c.ripples tails).clo = max 0 (rminSteps (c.par.rmin - c.par.maxext) c.par.dr) ∧
    (rlimits c.par c.ripples tails).chi = rmaxSteps (c.par.rmax + c.par.maxext) c.par.dr := by
  unfold rlimits
  rw [if_neg (not_empty hne)]
  dsimp only
  unfold rescaled
  dsimp only
  rw [if_pos (not_le.1 hfit)]
  exact ⟨rfl, rfl⟩

theorem looked_calc {c : PCfg} {tails : ℝ} (ok : PDFGrid.Ok c.par c.ripples tails) {n : ℤ}
    (h : Looked c n) : (rlimits c.par c.ripples tails).clo ≤ n ∧ n < (rlimits c.par c.ripples tails).chi := by
  have hd : eps < c.par.dr := ok.step
  have hd0 : 0 < c.par.dr := lt_trans eps_pos hd
  have ht := ok.tls
  obtain ⟨⟨hne, h1, h2, h3⟩, -⟩ := h
  have hm1 := min_le_left c.ripples c.par.maxext
  have hm2 := min_le_right c.ripples c.par.maxext
  have he : (1 : ℝ) / 2 ^ 26 = eps := rfl
  by_cases hfit : c.ripples + tails ≤ c.par.maxext
  · unfold rlimits
    rw [if_neg (not_empty hne)]
    dsimp only
    unfold rescaled
    dsimp only
    rw [if_neg (not_lt.2 hfit), max_le_iff, rminSteps_le _ _ hd, lt_rmaxSteps _ _ hd0]
    exact ⟨⟨h1, by linarith⟩, by linarith⟩
  · obtain ⟨e1, e2⟩ := calc_rescaled hfit hne
    rw [e1, e2, max_le_iff, rminSteps_le _ _ hd, lt_rmaxSteps _ _ hd0]
    exact ⟨⟨h1, by linarith⟩, by linarith⟩

/-- The points of the grid are points of the extended range. -/
theorem extended_of_grid {c : PCfg} {tails : ℝ} (ok : PDFGrid.Ok c.par c.ripples tails) {n : ℤ}
    (h : ((n : ℝ) * c.par.dr) ∈ rgrid c.par.rmin c.par.rmax c.par.dr) : Extended c n := by
  have hd0 : 0 < c.par.dr := lt_trans eps_pos ok.step
  obtain ⟨m, hm, hm1, hm2⟩ := ((rgrid_exact c.par.rmin c.par.rmax c.par.dr ok.step).1 _).1 h
  have hr := ok.rip
  have h0 := ok.rmin
  have hmin : 0 ≤ min c.ripples c.par.maxext := le_min hr ok.ext
  refine ⟨fun e => by rw [e] at h; simp at h, ?_, by linarith, by linarith⟩
  have hst := ok.step
  have : (-1 : ℝ) * c.par.dr < (n : ℝ) * c.par.dr := by linarith
  have := lt_of_mul_lt_mul_right this hd0.le
  have h1 : (-1 : ℤ) < n := by exact_mod_cast this
  omega

/-- A bond that is drawn at a point looked at is within the range of the bond generator, when ripples and tails fit into the maximal extension. -/
theorem drawn_range (c : PCfg) (tails : ℝ) (ok : PDFGrid.Ok c.par c.ripples tails) (hfit : c.ripples + tails ≤ c.par.maxext) (n : ℤ)
    (h : Looked c n) (w : ℝ) (v : V3) (hb : 1 / 2 ^ 26 < V3.norm v → 0 ≤ w ∧ -tails ≤ c.prof.lo w ∧ c.prof.hi w ≤ tails) :
    (if InRange ((rlimits c.par c.ripples tails).clo * c.par.dr) ((rlimits c.par c.ripples tails).chi * c.par.dr) (V3.norm v) then
      drawn c.prof c.par.dr n w v else 0) = drawn c.prof c.par.dr n w v := by
  by_cases hr : InRange ((rlimits c.par c.ripples tails).clo * c.par.dr) ((rlimits c.par c.ripples tails).chi * c.par.dr) (V3.norm v)
  · rw [if_pos hr]
  rw [if_neg hr]
  symm
  unfold drawn
  split
  · next hc =>
    obtain ⟨hd, c1, c2⟩ := hc
    obtain ⟨b0, b1, b2⟩ := hb hd
    have hd0 : 0 < c.par.dr := lt_trans eps_pos ok.step
    have hne := h.1.1
    obtain ⟨share, -, -, -, -, -, -, -, -, -, q2, q3, -⟩ := calc_range c.par c.ripples tails ok hne
    rw [min_eq_right hfit] at q2 q3
    rw [Int.le_floor, le_div_iff₀ hd0] at c2
    have c1' : (V3.norm v + c.prof.lo w) < ((n : ℝ) + 1) * c.par.dr := by
      have := Int.lt_floor_add_one ((V3.norm v + c.prof.lo w) / c.par.dr)
      rw [div_lt_iff₀ hd0] at this
      refine lt_of_lt_of_le this (mul_le_mul_of_nonneg_right ?_ hd0.le)
      exact_mod_cast (by omega : ⌊(V3.norm v + c.prof.lo w) / c.par.dr⌋ + 1 ≤ n + 1)
    have hlo : ((rlimits c.par c.ripples tails).clo : ℝ) * c.par.dr ≤ V3.norm v := by
      rcases q2 with q2 | q2
      · rw [q2]; simp; exact V3.norm_nonneg v
      · rcases h.2.1 with h0 | h0
        · have ht := ok.tls
          have : ((rlimits c.par c.ripples tails).clo : ℝ) * c.par.dr < 1 * c.par.dr := by linarith
          have h1 : (rlimits c.par c.ripples tails).clo < 1 := by
            have := lt_of_mul_lt_mul_right this hd0.le
            exact_mod_cast this
          have h2 : ((rlimits c.par c.ripples tails).clo : ℝ) ≤ 0 := by exact_mod_cast (by omega : (rlimits c.par c.ripples tails).clo ≤ 0)
          exact le_trans (mul_nonpos_of_nonpos_of_nonneg h2 hd0.le) (V3.norm_nonneg v)
        · linarith
    have hhi : ¬ V3.norm v ≤ ((rlimits c.par c.ripples tails).chi : ℝ) * c.par.dr := fun h2 => hr ⟨hlo, h2, hd⟩
    rw [not_le] at hhi
    rcases h.2.2 with h1 | h1
    · exfalso
      linarith
    · have hg := h.1.2.2.2
      have hm1 := min_le_left c.ripples c.par.maxext
      rw [h1 w b0 _ (Or.inl ?_), zero_mul]
      have := ok.rip
      linarith
  · rfl

theorem rminSteps_ceil (x : ℝ) {dr : ℝ} (hd : eps < dr) : rminSteps x dr = ⌈(x - 1 / 2 ^ 26) / dr⌉ := by
  apply eq_of_forall_ge_iff
  intro n
  rw [rminSteps_le _ _ hd, Int.ceil_le, div_le_iff₀ (lt_trans eps_pos hd)]
  rfl

theorem rmaxSteps_ceil (x : ℝ) {dr : ℝ} (hd : 0 < dr) : rmaxSteps x dr = ⌈x / dr⌉ := by
  apply eq_of_forall_lt_iff
  intro n
  rw [lt_rmaxSteps _ _ hd, Int.lt_ceil, lt_div_iff₀ hd]

/-- The bonds that the generator delivers, at a point looked at, are the ones within reach. -/
theorem reached_range (c : PCfg) (tails : ℝ) (ok : PDFGrid.Ok c.par c.ripples tails) (n : ℤ)
    (h : Looked c n) (w : ℝ) (v : V3) (hb : 1 / 2 ^ 26 < V3.norm v → 0 ≤ w ∧ -tails ≤ c.prof.lo w ∧ c.prof.hi w ≤ tails) :
    (if InRange ((rlimits c.par c.ripples tails).clo * c.par.dr) ((rlimits c.par c.ripples tails).chi * c.par.dr) (V3.norm v) then
      drawn c.prof c.par.dr n w v else 0) = reached c (drawn c.prof c.par.dr n) w v := by
  have hd : eps < c.par.dr := ok.step
  have hd0 : 0 < c.par.dr := lt_trans eps_pos hd
  have hne := h.1.1
  have hlow : ∀ m : ℤ, ((max 0 m : ℤ) : ℝ) * c.par.dr ≤ V3.norm v ↔ (m : ℝ) * c.par.dr ≤ V3.norm v := by
    intro m
    constructor
    · refine le_trans (mul_le_mul_of_nonneg_right ?_ hd0.le)
      exact_mod_cast le_max_right 0 m
    · intro hm
      rcases le_total 0 m with h0 | h0
      · rw [max_eq_right h0]; exact hm
      · rw [max_eq_left h0]; simp; exact V3.norm_nonneg v
  by_cases hfit : c.ripples + tails ≤ c.par.maxext
  · have h1 := drawn_range c tails ok hfit n h w v hb
    unfold reached
    by_cases hr : Reach c (V3.norm v)
    · rw [if_pos hr]; exact h1
    · rw [if_neg hr, if_neg]
      rintro ⟨a1, a2, -⟩
      refine hr ⟨?_, ?_⟩
      · rw [← rminSteps_ceil _ hd, ← hlow]
        refine le_trans (mul_le_mul_of_nonneg_right ?_ hd0.le) a1
        unfold rlimits
        rw [if_neg (not_empty hne)]
        dsimp only
        unfold rescaled
        dsimp only
        rw [if_neg (not_lt.2 hfit)]
        have : rminSteps (c.par.rmin - c.par.maxext) c.par.dr ≤ rminSteps (c.par.rmin - (c.ripples + tails)) c.par.dr := by
          rw [rminSteps_ceil _ hd, rminSteps_ceil _ hd]
          exact Int.ceil_le_ceil (div_le_div_of_nonneg_right (by linarith) hd0.le)
        exact_mod_cast max_le_max_left 0 this
      · rw [← rmaxSteps_ceil _ hd0]
        refine le_trans a2 (mul_le_mul_of_nonneg_right ?_ hd0.le)
        unfold rlimits
        rw [if_neg (not_empty hne)]
        dsimp only
        unfold rescaled
        dsimp only
        rw [if_neg (not_lt.2 hfit)]
        have : rmaxSteps (c.par.rmax + (c.ripples + tails)) c.par.dr ≤ rmaxSteps (c.par.rmax + c.par.maxext) c.par.dr := by
          rw [rmaxSteps_ceil _ hd0, rmaxSteps_ceil _ hd0]
          exact Int.ceil_le_ceil (div_le_div_of_nonneg_right (by linarith) hd0.le)
        exact_mod_cast this
  · obtain ⟨e1, e2⟩ := calc_rescaled hfit hne
    rw [e1, e2]
    unfold reached
    have hiff : Reach c (V3.norm v) ↔ (((max 0 (rminSteps (c.par.rmin - c.par.maxext) c.par.dr) : ℤ) : ℝ) * c.par.dr ≤ V3.norm v ∧
        V3.norm v ≤ (rmaxSteps (c.par.rmax + c.par.maxext) c.par.dr : ℝ) * c.par.dr) := by
      unfold Reach
      rw [hlow, rminSteps_ceil _ hd, rmaxSteps_ceil _ hd0]
    by_cases hz : 1 / 2 ^ 26 < V3.norm v
    · by_cases hr : Reach c (V3.norm v)
      · rw [if_pos hr, if_pos]
        exact ⟨(hiff.1 hr).1, (hiff.1 hr).2, hz⟩
      · rw [if_neg hr, if_neg]
        rintro ⟨a1, a2, -⟩
        exact hr (hiff.2 ⟨a1, a2⟩)
    · have h0 : drawn c.prof c.par.dr n w v = 0 := by
        unfold drawn
        rw [if_neg fun y => hz y.1]
      rw [h0]
      simp

theorem gen_spec {s : Sorter} {conf : C → PCfg} {stru : S → RStru} {k : Cls C S} (hk : IsPDFCalculator s conf stru k)
    (hr : Regular conf stru k) (c : C) (x : S) (l : Limits) :
    GenSpec (k.gen c x l) fun i j => (vecs (geom (stru x)) (l.clo * (conf c).par.dr) (l.chi * (conf c).par.dr) i j).map
      fun v => (⟨V3.norm v, (conf c).W (stru x) i j v, (geom (stru x)).mult i⟩ : Debye.Bond) := by
  intro i sel
  by_cases h : i < (geom (stru x)).cnt ∧ ∀ j ∈ sel, j < (geom (stru x)).cnt
  · obtain ⟨gen, width, h1, h2, h3⟩ := hk.gen c x l
    rw [h3 i sel h.1 h.2]
    obtain ⟨bonds, hd⟩ := delivers _ (hr.geo x) _ _ gen h1
    have hw := Debye.width_bonds _ _ _ gen bonds hd width _ h2
    obtain ⟨g0, hs, he⟩ := hd.spec
    unfold Debye.readGen
    rw [he i sel h.1 h.2]
    refine ((hs i sel).map _).trans ?_
    rw [List.map_flatMap]
    refine List.Perm.flatMap_left _ fun j hj => ?_
    rw [List.map_map, List.map_map]
    have hp := (delivers_vecs (hr.geo x) hd i j h.1 (h.2 j hj)).map
      ((fun b => (j, b)) ∘ fun v => (⟨V3.norm v, (conf c).W (stru x) i j v, (geom (stru x)).mult i⟩ : Debye.Bond))
    rw [List.map_map] at hp
    refine (List.Perm.of_eq ?_).trans hp
    refine List.map_congr_left fun b hb => ?_
    show (j, (⟨b.distance, width i j b, _⟩ : Debye.Bond)) = _
    rw [hd.dist i j b hb, hw i h.1 j (h.2 j hj) b hb]
    rfl
  · exact hk.outside c x l i sel h

/-- What a pair of atoms adds at a point looked at. -/
noncomputable def pairPart (c : PCfg) (kind : Kind Lat Sym) (a b : Option Atom) (n : ℤ) : ℝ :=
  open Classical in
  if Looked c n then ((geom (pairStru kind a b)).mult 0 : ℝ) * (atomFactor c a * atomFactor c b *
    (geom (pairStru kind a b)).sum 0 1 fun v => reached c (drawn c.prof c.par.dr n) (c.width kind a b v) v) else 0

theorem pairPart_eq (c : PCfg) (x : RStru) (i j : ℕ) (hi : i < x.atoms.length) (hj : j < x.atoms.length) (n : ℤ) (hn : Looked c n) :
    pairPart c x.kind x.atoms[i]? x.atoms[j]? n = ((geom x).mult i : ℝ) * (atomFactor c x.atoms[i]? * atomFactor c x.atoms[j]? *
      (geom x).sum i j fun v => reached c (drawn c.prof c.par.dr n) (c.W x i j v) v) := by
  unfold pairPart
  rw [if_pos hn]
  have h := samePair_of x i j hi hj
  rw [sum_pair x _ i j 0 1 h, mult_atom x _ h.kind i 0 h.fst]
  rfl

theorem list_sum_at (l : List (ℤ → ℝ)) (n : ℤ) : l.sum n = (l.map fun f => f n).sum := by
  induction l with
  | nil => rfl
  | cons a l ih => rw [List.sum_cons, Pi.add_apply, ih, List.map_cons, List.sum_cons]

theorem Quiet.looked {conf : C → PCfg} {k : Cls C S} {c c' : C} (h : Quiet conf k c c') {n : ℤ} (hn : Looked (conf c') n) : Looked (conf c) n := by
  have hs := h.same
  have hl := h.less
  have epar : (conf c').par = (conf c).par := by rw [hs]
  have eprof : (conf c').prof = (conf c).prof := by rw [hs]
  obtain ⟨⟨h1, h2, h3, h4⟩, h5, h6⟩ := hn
  rw [epar] at h1 h3 h4 h5 h6
  rw [eprof] at h6
  have hmin : min (conf c').ripples (conf c).par.maxext ≤ min (conf c).ripples (conf c).par.maxext := min_le_min_right _ hl
  refine ⟨⟨h1, h2, by linarith, by linarith⟩, ?_, ?_⟩
  · rcases h5 with h5 | h5
    · exact Or.inl (by linarith)
    · exact Or.inr (by linarith)
  · rcases h6 with h6 | h6
    · exact Or.inl (by linarith)
    · exact Or.inr h6

theorem Quiet.refl (conf : C → PCfg) (k : Cls C S) (c : C) : Quiet conf k c c := ⟨rfl, le_refl _, fun _ => rfl⟩

theorem Quiet.trans {conf : C → PCfg} {k : Cls C S} {a b c : C} (h : Quiet conf k a b) (h' : Quiet conf k b c) : Quiet conf k a c := by
  refine ⟨?_, h'.less.trans h.less, fun x => (h'.cache x).trans (h.cache x)⟩
  have e := h'.same
  have e' := h.same
  rw [e'] at e
  exact e

theorem pair_sum_wide {s : Sorter} {conf : C → PCfg} {stru : S → RStru} {k : Cls C S} (hk : IsPDFCalculator s conf stru k)
    (hr : Regular conf stru k) (c0 c : C) (hq : Quiet conf k c0 c) (x : S) (i j : ℕ) (hi : i < (stru x).atoms.length) (hj : j < (stru x).atoms.length) :
    (((vecs (geom (stru x)) ((k.lim c0 x).clo * (conf c).par.dr) ((k.lim c0 x).chi * (conf c).par.dr) i j).map
      fun v => (⟨V3.norm v, (conf c).W (stru x) i j v, (geom (stru x)).mult i⟩ : Debye.Bond)).map (k.con (fun c n => Looked (conf c) n) c x i j)).sum =
      pairPart (conf c) (stru x).kind (stru x).atoms[i]? (stru x).atoms[j]? := by
  funext n
  rw [list_sum_at, List.map_map, List.map_map]
  obtain ⟨dflt, inv, hca⟩ := hk.cache c x
  have hi' : i < (geom (stru x)).cnt := by rw [geom_cnt]; exact hi
  have hj' : j < (geom (stru x)).cnt := by rw [geom_cnt]; exact hj
  by_cases hn : Looked (conf c) n
  · rw [pairPart_eq _ _ _ _ hi hj n hn, ← mul_assoc, ← sum_mul_left]
    set l := k.lim c0 x with hl
    have hl' : l = rlimits (conf c0).par (conf c0).ripples (k.tails c0 x) := by rw [hl]; unfold Cls.lim; rw [hk.par, hk.ripples]
    have hsame := hq.same
    have epar : (conf c).par = (conf c0).par := by rw [hsame]
    have eprof : (conf c).prof = (conf c0).prof := by rw [hsame]
    have eW : (conf c).W = (conf c0).W := by rw [hsame]; rfl
    set A := ((geom (stru x)).mult i : ℝ) * (atomFactor (conf c) (stru x).atoms[i]? * atomFactor (conf c) (stru x).atoms[j]?) with hA
    have e1 : ((vecs (geom (stru x)) (l.clo * (conf c).par.dr) (l.chi * (conf c).par.dr) i j).map fun v =>
        A * drawn (conf c).prof (conf c).par.dr n ((conf c).W (stru x) i j v) v).sum = (geom (stru x)).sum i j fun v =>
        A * reached (conf c) (drawn (conf c).prof (conf c).par.dr n) ((conf c).W (stru x) i j v) v := by
      rw [vecs_sum _ (hr.geo x) _ _ i j hi' hj']
      refine sum_congr_vec _ _ _ _ _ fun v hv => ?_
      unfold cut
      have := reached_range (conf c0) _ (hr.ok c0 x) n (hq.looked hn) ((conf c0).W (stru x) i j v) v (hr.tails c0 x i j hi hj v hv)
      have ere : reached (conf c0) = reached (conf c) := by
        unfold reached Reach
        rw [epar]
      rw [← hl', ere, ← epar, ← eprof, ← eW] at this
      rw [← this]
      by_cases hR : InRange (l.clo * (conf c).par.dr) (l.chi * (conf c).par.dr) (V3.norm v)
      · rw [if_pos hR, if_pos hR]
      · rw [if_neg hR, if_neg hR, mul_zero]
    rw [← e1]
    congr 1
    refine List.map_congr_left fun v hv => ?_
    obtain ⟨-, hd⟩ := ((vecs_spec _ (hr.geo x) _ _ i j hi' hj').2 v).1 hv
    have hd1 : 1 / 2 ^ 26 < V3.norm v := hd.2.2
    show k.con (fun c n => Looked (conf c) n) c x i j ⟨V3.norm v, (conf c).W (stru x) i j v, (geom (stru x)).mult i⟩ n = _
    unfold Cls.con drawn
    rw [hk.prof, hk.par, hca]
    have hcov : covers (conf c).prof (conf c).par.dr (bondPeak (cacheOf (conf c).lookup dflt inv (sitesOf (stru x)))
        ⟨i, j, 1, ⟨V3.norm v, (conf c).W (stru x) i j v, (geom (stru x)).mult i⟩⟩) n ↔
        ⌊(V3.norm v + (conf c).prof.lo ((conf c).W (stru x) i j v)) / (conf c).par.dr⌋ ≤ n ∧
        n ≤ ⌊(V3.norm v + (conf c).prof.hi ((conf c).W (stru x) i j v)) / (conf c).par.dr⌋ := Iff.rfl
    by_cases hc : covers (conf c).prof (conf c).par.dr (bondPeak (cacheOf (conf c).lookup dflt inv (sitesOf (stru x)))
        ⟨i, j, 1, ⟨V3.norm v, (conf c).W (stru x) i j v, (geom (stru x)).mult i⟩⟩) n
    · rw [if_pos ⟨hn, hc⟩, if_pos ⟨hd1, hcov.1 hc⟩]
      unfold peakAt bondPeak
      dsimp only
      rw [sfSite_factor, sfSite_factor, factor_atom, factor_atom, hA]
      have hne : V3.norm v ≠ 0 := (pos_of_far hd1).ne'
      push_cast
      field_simp
      ring
    · rw [if_neg fun y => hc y.2, if_neg fun y => hc (hcov.2 y.2), mul_zero]
  · unfold pairPart
    rw [if_neg hn]
    refine List.sum_eq_zero ?_
    intro y hy
    obtain ⟨v, -, rfl⟩ := List.mem_map.1 hy
    show k.con (fun c n => Looked (conf c) n) c x i j _ n = 0
    unfold Cls.con
    rw [if_neg fun y => hn y.1]

theorem pair_sum {s : Sorter} {conf : C → PCfg} {stru : S → RStru} {k : Cls C S} (hk : IsPDFCalculator s conf stru k)
    (hr : Regular conf stru k) (c : C) (x : S) (i j : ℕ) (hi : i < (stru x).atoms.length) (hj : j < (stru x).atoms.length) :
    (((vecs (geom (stru x)) ((k.lim c x).clo * (conf c).par.dr) ((k.lim c x).chi * (conf c).par.dr) i j).map
      fun v => (⟨V3.norm v, (conf c).W (stru x) i j v, (geom (stru x)).mult i⟩ : Debye.Bond)).map (k.con (fun c n => Looked (conf c) n) c x i j)).sum =
      pairPart (conf c) (stru x).kind (stru x).atoms[i]? (stru x).atoms[j]? := pair_sum_wide hk hr c c (Quiet.refl _ _ _) x i j hi hj

theorem pair_sym {conf : C → PCfg} {stru : S → RStru} {k : Cls C S}
    (hr : Regular conf stru k) (c : C) (x : S) (i j : ℕ) (hi : i < (stru x).atoms.length) (hj : j < (stru x).atoms.length) :
    pairPart (conf c) (stru x).kind (stru x).atoms[i]? (stru x).atoms[j]? =
      pairPart (conf c) (stru x).kind (stru x).atoms[j]? (stru x).atoms[i]? := by
  funext n
  by_cases hn : Looked (conf c) n
  · rw [pairPart_eq _ _ _ _ hi hj n hn, pairPart_eq _ _ _ _ hj hi n hn]
    have hi' : i < (geom (stru x)).cnt := by rw [geom_cnt]; exact hi
    have hj' : j < (geom (stru x)).cnt := by rw [geom_cnt]; exact hj
    set l := rlimits (conf c).par (conf c).ripples (k.tails c x) with hl
    have e : ∀ a b, a < (stru x).atoms.length → b < (stru x).atoms.length →
        ((geom (stru x)).sum a b fun v => reached (conf c) (drawn (conf c).prof (conf c).par.dr n) ((conf c).W (stru x) a b v) v) =
        (geom (stru x)).sum a b (cut (l.clo * (conf c).par.dr) (l.chi * (conf c).par.dr) fun v =>
          drawn (conf c).prof (conf c).par.dr n ((conf c).W (stru x) a b v) ⟨V3.norm v, 0, 0⟩) := by
      intro a b ha hb
      refine sum_congr_vec _ _ _ _ _ fun v hv => ?_
      rw [← reached_range (conf c) _ (hr.ok c x) n hn ((conf c).W (stru x) a b v) v (hr.tails c x a b ha hb v hv)]
      unfold cut
      have hnn : V3.norm (⟨V3.norm v, 0, 0⟩ : V3) = V3.norm v := by
        unfold V3.norm V3.dot
        simp
      unfold drawn
      beta_reduce
      rw [hnn]
    rw [e i j hi hj, e j i hj hi]
    have h := hr.recip c x (l.clo * (conf c).par.dr) (l.chi * (conf c).par.dr)
      (fun d w => drawn (conf c).prof (conf c).par.dr n w ⟨d, 0, 0⟩) i j hi' hj'
    beta_reduce at h
    linear_combination (atomFactor (conf c) (stru x).atoms[i]? * atomFactor (conf c) (stru x).atoms[j]?) * h
  · unfold pairPart
    rw [if_neg hn, if_neg hn]

theorem ghost_lawful {s : Sorter} (hs : SortSpec s) {conf : C → PCfg} {stru : S → RStru} {k : Cls C S} (hk : IsPDFCalculator s conf stru k)
    (hr : Regular conf stru k) :
    Lawful (k.ghost fun c n => Looked (conf c) n) ∧ ∀ c x, basicValue (k.ghost fun c n => Looked (conf c) n) c x =
      ∑ i ∈ Finset.range (stru x).atoms.length, ∑ j ∈ Finset.range (stru x).atoms.length,
        if k.use c x i j = true then pairPart (conf c) (stru x).kind (stru x).atoms[i]? (stru x).atoms[j]? else 0 := by
  refine lawful_of_pairs stru (k.ghost fun c n => Looked (conf c) n) hr.cls s hs hk.diff hk.count
    (fun c x i j => (vecs (geom (stru x)) ((k.lim c x).clo * (conf c).par.dr) ((k.lim c x).chi * (conf c).par.dr) i j).map
      fun v => (⟨V3.norm v, (conf c).W (stru x) i j v, (geom (stru x)).mult i⟩ : Debye.Bond))
    (fun c x => gen_spec hk hr c x _) (fun c => (conf c).mask) hk.use (fun c => hr.mask c) ?_
    (fun c => pairPart (conf c)) (fun c x i j hi hj => pair_sum hk hr c x i j hi hj) ?_ (fun c x i j hi hj => pair_sym hr c x i j hi hj)
    ?_ (fun _ => rfl)
  · intro c h
    refine hr.types c ?_
    simpa [Cls.ghost] using h
  · intro c x i j h
    rw [← geom_cnt] at h
    rw [vecs_out _ _ _ _ _ h]
    rfl
  · intro x c _
    show (k.custom x c).1 = c
    rw [hk.custom]

theorem spec_at {s : Sorter} (hs : SortSpec s) {conf : C → PCfg} {stru : S → RStru} {k : Cls C S} (hk : IsPDFCalculator s conf stru k)
    (hr : Regular conf stru k) (c : C) (x : S) (n : ℤ) (hn : Looked (conf c) n) (ca : Cache) (hca : ca = k.cache c x) :
    basicValue (k.ghost fun c n => Looked (conf c) n) c x n * ca.rdfScale =
      struRDF (conf c) (stru x) (counted (conf c) (k.tails c x) (drawn (conf c).prof (conf c).par.dr n)) := by
  obtain ⟨dflt, inv, hd⟩ := hk.cache c x
  rw [hca, hd, rdfScale_mul, (ghost_lawful hs hk hr).2]
  unfold struRDF
  congr 1
  rw [Finset.sum_apply]
  refine Finset.sum_congr rfl fun i hi => ?_
  rw [Finset.sum_apply]
  refine Finset.sum_congr rfl fun j hj => ?_
  rw [Finset.mem_range] at hi hj
  rw [hk.use]
  split
  · rw [pairPart_eq _ _ _ _ hi hj n hn]
    congr 2
    by_cases hfit : (conf c).ripples + k.tails c x ≤ (conf c).par.maxext
    · rw [counted_fits _ _ hfit]
      refine sum_congr_vec _ _ _ _ _ fun v hv => ?_
      rw [← reached_range (conf c) _ (hr.ok c x) n hn _ v (hr.tails c x i j hi hj v hv), drawn_range (conf c) _ (hr.ok c x) hfit n hn _ v (hr.tails c x i j hi hj v hv)]
    · rw [counted_not _ _ hfit]
  · rfl

theorem in_calc {s : Sorter} {conf : C → PCfg} {stru : S → RStru} {k : Cls C S} (hk : IsPDFCalculator s conf stru k)
    (hr : Regular conf stru k) : InCalc k (fun c n => Looked (conf c) n) ∧ Ordered k := by
  have e : ∀ c x, k.lim c x = rlimits (conf c).par (conf c).ripples (k.tails c x) := by
    intro c x
    unfold Cls.lim
    rw [hk.par, hk.ripples]
  refine ⟨fun c x n hn => ?_, fun c x => ?_⟩
  · rw [e]
    exact looked_calc (hr.ok c x) hn
  · obtain ⟨o1, o2, o3, -⟩ := limits_order _ _ _ (hr.ok c x)
    rw [e]
    omega

theorem quiet_law {s : Sorter} (hs : SortSpec s) {conf : C → PCfg} {stru : S → RStru} {k : Cls C S} (hk : IsPDFCalculator s conf stru k)
    (hr : Regular conf stru k) : QuietLaw k (fun c n => Looked (conf c) n) (Quiet conf k) := by
  refine ⟨Quiet.refl conf k, fun _ _ _ h h' => h.trans h', fun c c' h n hn => h.looked hn, fun c c' h x => h.cache x, ?_, ?_, ?_⟩
  · intro c c' h x
    refine ⟨fun n hn => (in_calc hk hr).1 c x n (h.looked hn), fun use pop cpu ncpu => ?_⟩
    refine removeTrace_congr _ _ _ _ _ _ (gen_spec hk hr c' x _) (gen_spec hk hr c' x _) (fun i j => ?_) _ _ _ _ _ _
    by_cases hij : i < (stru x).atoms.length ∧ j < (stru x).atoms.length
    · rw [pair_sum_wide hk hr c c' h x i j hij.1 hij.2, pair_sum hk hr c' x i j hij.1 hij.2]
    · rw [← geom_cnt] at hij
      rw [vecs_out _ _ _ _ _ hij, vecs_out _ _ _ _ _ hij]
  · intro c c' h x n hn
    rw [(ghost_lawful hs hk hr).2, (ghost_lawful hs hk hr).2, Finset.sum_apply, Finset.sum_apply]
    refine Finset.sum_congr rfl fun i hi => ?_
    rw [Finset.sum_apply, Finset.sum_apply]
    refine Finset.sum_congr rfl fun j hj => ?_
    rw [Finset.mem_range] at hi hj
    have hsame := h.same
    have e1 : (conf c').mask = (conf c).mask := by rw [hsame]
    rw [hk.use, hk.use, e1]
    split
    · rw [pairPart_eq _ _ _ _ hi hj n hn, pairPart_eq _ _ _ _ hi hj n (h.looked hn), hsame]
      rfl
    · rfl
  · intro x hx
    rw [hk.count, hk.empty x hx]
    rfl

theorem rdf_of_agrees {s : Sorter} {conf : C → PCfg} {stru : S → RStru} {k : Cls C S} (hk : IsPDFCalculator s conf stru k)
    (hr : Regular conf stru k) (d : Data) (c : C) (x : S) (v : ℤ → ℝ) (h : Agrees k (fun c n => Looked (conf c) n) d c x v) :
    ∃ z, (⟨k.par c, d.lim, d.value⟩ : PDFGrid.Calc ℝ).getRDF d.cache.rdfScale = some z ∧
      z.length = (rgrid (conf c).par.rmin (conf c).par.rmax (conf c).par.dr).length ∧
      ∀ (m : ℕ) (n : ℤ), (rgrid (conf c).par.rmin (conf c).par.rmax (conf c).par.dr)[m]? = some ((n : ℝ) * (conf c).par.dr) →
        Seen (conf c) n → z[m]? = some (v n * d.cache.rdfScale) := by
  have hl : d.lim = rlimits (conf c).par (conf c).ripples (k.tails c x) := by rw [h.lim]; unfold Cls.lim; rw [hk.par, hk.ripples]
  rw [hk.par]
  obtain ⟨z, h1, h2, h3⟩ := getRDF_spec (⟨(conf c).par, d.lim, d.value⟩ : PDFGrid.Calc ℝ) (conf c).ripples (k.tails c x) d.cache.rdfScale
    (hr.ok c x) ⟨hl, h.len⟩
  refine ⟨z, h1, h2, fun m n hm hn => ?_⟩
  rw [h3 m n hm]
  show some (at_ d.lim.clo d.value n * _) = _
  rw [h.val n ⟨extended_of_grid (hr.ok c x) (List.mem_of_getElem? hm), hn⟩]

/-- **C86**. After any history of evaluations (full or fast, any evaluator), configuration and `setStructure` calls, `eval` of a structure leaves
an RDF that, at the grid points looked at, is the sum over the atoms of one cell and all atoms of that structure under the configuration of that time. -/
theorem rdf_history (s : Sorter) (hs : SortSpec s) (conf : C → PCfg) (stru : S → RStru) (k : Cls C S) (hk : IsPDFCalculator s conf stru k)
    (hr : Regular conf stru k) (c : C) (e : S) (ops : List (POp C S)) (ha : Proper (Quiet conf k) k (pcInit k c e 0 1) ops)
    (ht : taintAfter k.control (pcInit k c e 0 1).h false (ops.map POp.op) = false) (x : S) :
    let r := pcEval k (pcRun k (pcInit k c e 0 1) ops) x
    let p := (conf r.h.cfg).par
    ∃ z, getRDF k r = some z ∧ z.length = (rgrid p.rmin p.rmax p.dr).length ∧
      ∀ (m : ℕ) (n : ℤ), (rgrid p.rmin p.rmax p.dr)[m]? = some ((n : ℝ) * p.dr) → Seen (conf r.h.cfg) n →
        z[m]? = some (struRDF (conf r.h.cfg) (stru x) (counted (conf r.h.cfg) (k.tails r.h.cfg x) (drawn (conf r.h.cfg).prof p.dr n))) := by
  intro r p
  obtain ⟨hin, ho⟩ := in_calc hk hr
  obtain ⟨v, hv, hj⟩ := joint_history k _ hin ho 1 (le_refl _) (ghost_lawful hs hk hr).1 _ (quiet_law hs hk hr) c e ops ha ht x
  obtain ⟨-, hA⟩ := hj 0 Nat.one_pos
  rw [Finset.sum_range_one] at hv
  obtain ⟨z, h1, h2, h3⟩ := rdf_of_agrees hk hr r.d r.h.cfg x (v 0) hA
  refine ⟨z, h1, h2, fun m n hm hn => ?_⟩
  rw [h3 m n hm hn, hv]
  congr 1
  exact spec_at hs hk hr r.h.cfg x n ⟨extended_of_grid (hr.ok r.h.cfg x) (List.mem_of_getElem? hm), hn⟩ r.d.cache hA.cache

/-- Collecting the values of jobs 0 to n-1 after the same history gives the data of the structure. -/
theorem merge_agrees (s : Sorter) (hs : SortSpec s) (conf : C → PCfg) (stru : S → RStru) (k : Cls C S) (hk : IsPDFCalculator s conf stru k)
    (hr : Regular conf stru k) (jobs : ℕ) (hjobs : 1 ≤ jobs) (c : C) (e : S) (ops : List (POp C S))
    (ha : Proper (Quiet conf k) k (pcInit k c e 0 jobs) ops)
    (ht : taintAfter k.control (pcInit k c e 0 jobs).h false (ops.map POp.op) = false) (x : S) (parts : List (List ℝ))
    (hp : parts.Perm ((List.range jobs).map fun j : ℕ => (pcEval k (pcRun k (pcInit k c e j jobs) ops) x).d.value)) (m0 : PC C S)
    (hm : m0.h.cfg = (pcEval k (pcRun k (pcInit k c e 0 jobs) ops) x).h.cfg) :
    ∃ r, mergeParts k m0 x jobs parts = some r ∧ r.h = (pcStep k m0 (.setStructure x)).h ∧ r.h.cfg = m0.h.cfg ∧
      r.d.cache = (pcStep k m0 (.setStructure x)).d.cache ∧
      Agrees k (fun c n => Looked (conf c) n) r.d m0.h.cfg x (basicValue (k.ghost fun c n => Looked (conf c) n) m0.h.cfg x) := by
  obtain ⟨hin, ho⟩ := in_calc hk hr
  obtain ⟨v, hv, hj⟩ := joint_history k _ hin ho jobs hjobs (ghost_lawful hs hk hr).1 _ (quiet_law hs hk hr) c e ops ha ht x
  rw [← hm] at hv hj
  have hcfg : (k.custom x m0.h.cfg).1 = m0.h.cfg := by rw [hk.custom]
  have hs' : pcStep k m0 (.setStructure x) = ⟨step k.control m0.h (.setStructure x), resetValue k m0.h.cfg x m0.d⟩ := by
    show (⟨_, resetValue k (k.custom x m0.h.cfg).1 x m0.d⟩ : PC C S) = _
    rw [hcfg]
  have hscfg : (step k.control m0.h (.setStructure x)).cfg = m0.h.cfg := by
    show (setStru k.control x m0.h).cfg = _
    unfold setStru clickPq
    show (if _ then _ else _ : St C S Unit).cfg = _
    split
    · exact hcfg
    · exact hcfg
  have hA0 := agrees_reset k (fun c n => Looked (conf c) n) ho m0.h.cfg x m0.d
  set d0 := resetValue k m0.h.cfg x m0.d with hd0
  have hlen : ∀ q ∈ parts, q.length = d0.value.length := by
    intro q hq
    obtain ⟨j, hjm, rfl⟩ := List.mem_map.1 (hp.mem_iff.1 hq)
    obtain ⟨-, hA⟩ := hj j (List.mem_range.1 hjm)
    have h1 := hA.len
    have h2 := hA0.len
    rw [hA.lim] at h1
    rw [hA0.lim] at h2
    omega
  have hpl : (parts.length : ℤ) = jobs := by rw [hp.length_eq, List.length_map, List.length_range]
  have hreset : Protocol.resetValue (⟨d0.value, 0, 0⟩ : Protocol.Merge ℝ) = ⟨d0.value, 0, 0⟩ := by
    unfold Protocol.resetValue
    congr 1
    show (List.replicate _ _).map _ = _
    rw [List.map_replicate]
    rfl
  obtain ⟨m1, m2, m3, -, -⟩ := Protocol.merge_all_ok (⟨d0.value, 0, 0⟩ : Protocol.Merge ℝ) parts hlen
  rw [hreset, hpl] at m1 m2 m3
  generalize ho1 : Protocol.mergeAll (⟨d0.value, 0, 0⟩ : Protocol.Merge ℝ) (jobs : ℤ) parts = out at m1 m2 m3
  obtain ⟨st, err⟩ := out
  simp only at m1 m2 m3
  subst m1
  have hmerge : mergeParts k m0 x jobs parts = some ⟨step k.control m0.h (.setStructure x), { d0 with value := st.value }⟩ := by
    unfold mergeParts
    rw [hs']
    dsimp only
    rw [ho1]
  have hA : Agrees k (fun c n => Looked (conf c) n) { d0 with value := st.value } m0.h.cfg x (∑ j ∈ Finset.range jobs, v j) := by
    refine ⟨hA0.lim, hA0.cache, ?_, ?_⟩
    · show (st.value.length : ℤ) = d0.lim.count
      rw [m2]
      exact hA0.len
    · intro n hn
      obtain ⟨c1, c2⟩ := hin m0.h.cfg x n hn
      rw [← hA0.lim] at c1 c2
      show at_ d0.lim.clo st.value n = _
      have hcnt : d0.lim.count = d0.lim.chi - d0.lim.clo := rfl
      have hl0 := hA0.len
      have hi : (n - d0.lim.clo).toNat < d0.value.length := by omega
      unfold at_
      rw [if_pos c1, m3 _ hi, (hp.map fun q => q.getD (n - d0.lim.clo).toNat 0).sum_eq, List.map_map, ← finset_sum_range, Finset.sum_apply]
      refine Finset.sum_congr rfl fun j hjm => ?_
      obtain ⟨-, hAj⟩ := hj j (Finset.mem_range.1 hjm)
      rw [← hAj.val n hn]
      unfold at_
      have hlim := hAj.lim.trans hA0.lim.symm
      rw [hlim, if_pos c1]
      rfl
  rw [hv] at hA
  refine ⟨_, hmerge, ?_, hscfg, ?_, hA⟩
  · rw [hs']
  · rw [hs']

/-- **C86**, parallel. Jobs 0 to n-1 each go through the same history; a calculator with their configuration that collects their values in
any order ends up with the same RDF. -/
theorem rdf_parallel (s : Sorter) (hs : SortSpec s) (conf : C → PCfg) (stru : S → RStru) (k : Cls C S) (hk : IsPDFCalculator s conf stru k)
    (hr : Regular conf stru k) (jobs : ℕ) (hjobs : 1 ≤ jobs) (c : C) (e : S) (ops : List (POp C S))
    (ha : Proper (Quiet conf k) k (pcInit k c e 0 jobs) ops)
    (ht : taintAfter k.control (pcInit k c e 0 jobs).h false (ops.map POp.op) = false) (x : S) (parts : List (List ℝ))
    (hp : parts.Perm ((List.range jobs).map fun j : ℕ => (pcEval k (pcRun k (pcInit k c e j jobs) ops) x).d.value)) (m0 : PC C S)
    (hm : m0.h.cfg = (pcEval k (pcRun k (pcInit k c e 0 jobs) ops) x).h.cfg) :
    let p := (conf m0.h.cfg).par
    ∃ r z, mergeParts k m0 x jobs parts = some r ∧ getRDF k r = some z ∧ z.length = (rgrid p.rmin p.rmax p.dr).length ∧
      ∀ (m : ℕ) (n : ℤ), (rgrid p.rmin p.rmax p.dr)[m]? = some ((n : ℝ) * p.dr) → Seen (conf m0.h.cfg) n →
        z[m]? = some (struRDF (conf m0.h.cfg) (stru x) (counted (conf m0.h.cfg) (k.tails m0.h.cfg x) (drawn (conf m0.h.cfg).prof p.dr n))) := by
  intro p
  obtain ⟨r, hmerge, -, hcfg, -, hA⟩ := merge_agrees s hs conf stru k hk hr jobs hjobs c e ops ha ht x parts hp m0 hm
  obtain ⟨z, h1, h2, h3⟩ := rdf_of_agrees hk hr _ m0.h.cfg x _ hA
  refine ⟨_, z, hmerge, ?_, h2, fun m n hm hn => ?_⟩
  · unfold getRDF PC.out
    rw [hcfg]
    exact h1
  · rw [h3 m n hm hn]
    congr 1
    exact spec_at hs hk hr m0.h.cfg x n ⟨extended_of_grid (hr.ok m0.h.cfg x) (List.mem_of_getElem? hm), hn⟩ _ hA.cache

/-- For a profile that vanishes at and beyond its bounds the peaks are drawn in full: the sum is over the terms of C60. -/
theorem drawn_cropped (pf : Prof ℝ) (h : Cropped pf) (dr : ℝ) (hd : 0 < dr) (n : ℤ) (w : ℝ) (v : V3) (hw : 1 / 2 ^ 26 < V3.norm v → 0 ≤ w) :
    drawn pf dr n w v = pairTerm pf.y 1 w v ((n : ℝ) * dr) := by
  unfold drawn pairTerm
  by_cases hv : 1 / 2 ^ 26 < V3.norm v
  · rw [if_pos hv, one_mul]
    split
    · rfl
    · next hc =>
      have hy : pf.y ((n : ℝ) * dr - V3.norm v) w = 0 := by
        apply h w (hw hv)
        by_contra hn
        rw [not_or, not_le, not_le] at hn
        exact hc ⟨hv, inside_covers pf dr hd ⟨V3.norm v, w, 1⟩ n hn⟩
      rw [hy, zero_mul]
  · rw [if_neg hv, if_neg fun x => hv x.1]

theorem struRDF_congr (c : PCfg) (x : RStru) (T T' : ℝ → V3 → ℝ) (h : ∀ i < x.atoms.length, ∀ j < x.atoms.length, ∀ v, (geom x).IsVec i j v →
    T (c.W x i j v) v = T' (c.W x i j v) v) : struRDF c x T = struRDF c x T' := by
  unfold struRDF
  congr 1
  refine Finset.sum_congr rfl fun i hi => Finset.sum_congr rfl fun j hj => ?_
  rw [Finset.mem_range] at hi hj
  split
  · congr 2
    exact sum_congr_vec _ _ _ _ _ fun v hv => h i hi j hj v hv
  · rfl

/-- The sum over the peaks as drawn is the one over the terms of C60. -/
theorem struRDF_cropped {conf : C → PCfg} {stru : S → RStru} {k : Cls C S} (hr : Regular conf stru k) (c : C) (x : S) (hc : Cropped (conf c).prof)
    (n : ℤ) : struRDF (conf c) (stru x) (counted (conf c) (k.tails c x) (drawn (conf c).prof (conf c).par.dr n)) =
      struRDF (conf c) (stru x) (counted (conf c) (k.tails c x) fun w v => pairTerm (conf c).prof.y 1 w v ((n : ℝ) * (conf c).par.dr)) := by
  refine struRDF_congr _ _ _ _ fun i hi j hj v hv => ?_
  unfold counted
  rw [drawn_cropped _ hc _ (lt_trans eps_pos (hr.ok c x).step) n _ v fun h => (hr.tails c x i j hi hj v hv h).1]

/-- **C86** for cropped profiles: the RDF is the pair sum of the specification at every grid point, except within one step of the lower end. -/
theorem rdf_history_cropped (s : Sorter) (hs : SortSpec s) (conf : C → PCfg) (stru : S → RStru) (k : Cls C S) (hk : IsPDFCalculator s conf stru k)
    (hr : Regular conf stru k) (c : C) (e : S) (ops : List (POp C S)) (ha : Proper (Quiet conf k) k (pcInit k c e 0 1) ops)
    (ht : taintAfter k.control (pcInit k c e 0 1).h false (ops.map POp.op) = false) (x : S) :
    let r := pcEval k (pcRun k (pcInit k c e 0 1) ops) x
    let p := (conf r.h.cfg).par
    Cropped (conf r.h.cfg).prof →
    ∃ z, getRDF k r = some z ∧ z.length = (rgrid p.rmin p.rmax p.dr).length ∧
      ∀ (m : ℕ) (n : ℤ), (rgrid p.rmin p.rmax p.dr)[m]? = some ((n : ℝ) * p.dr) →
        (p.rmin - (conf r.h.cfg).ripples ≤ 0 ∨ p.rmin - (conf r.h.cfg).ripples + p.dr ≤ (n : ℝ) * p.dr) →
        z[m]? = some (struRDF (conf r.h.cfg) (stru x) (counted (conf r.h.cfg) (k.tails r.h.cfg x)
          fun w v => pairTerm (conf r.h.cfg).prof.y 1 w v ((n : ℝ) * p.dr))) := by
  intro r p hc
  obtain ⟨z, h1, h2, h3⟩ := rdf_history s hs conf stru k hk hr c e ops ha ht x
  refine ⟨z, h1, h2, fun m n hm hn => ?_⟩
  rw [h3 m n hm ⟨hn, Or.inr hc⟩, struRDF_cropped hr _ _ hc]

/-! ### The hypotheses can be met -/

/-- There is such a calculator for all configurations and regular structures, tails and pair mask flags. -/
theorem calculator_exists (s : Sorter) (conf : C → PCfg) (stru : S → RStru) (tails : C → S → ℝ) (pm : C → Bool) :
    ∃ k : Cls C S, IsPDFCalculator s conf stru k ∧ k.tails = tails ∧ k.hasPairMask = pm ∧
      ∀ c x, k.cache c x = cacheOf (conf c).lookup true [] (sitesOf (stru x)) := by
  classical
  let G : C → S → Limits → Gen BondGen.Bond := fun c x l =>
    (gen_exists (geom (stru x)) (l.clo * (conf c).par.dr) (l.chi * (conf c).par.dr)).choose
  refine ⟨{ hasPairMask := pm
            rule := chopOuterRule
            count := fun x => (stru x).atoms.length
            isEmpty := fun x => (stru x).atoms.isEmpty
            use := fun c x i j => (conf c).mask i j (stru x).atoms[i]? (stru x).atoms[j]?
            custom := fun _ c => (c, false)
            diff := fun x y => KindDiff.diff s false (stru x) (stru y)
            par := fun c => (conf c).par
            ripples := fun c => (conf c).ripples
            tails := tails
            prof := fun c => (conf c).prof
            cache := fun c x => cacheOf (conf c).lookup true [] (sitesOf (stru x))
            gen := fun c x l i sel => if i < (geom (stru x)).cnt ∧ ∀ j ∈ sel, j < (geom (stru x)).cnt then
                Debye.readGen (geom (stru x)).mult (fun i j b => (conf c).W (stru x) i j b.r01) (G c x l) i sel else
              sel.flatMap fun j => ((vecs (geom (stru x)) (l.clo * (conf c).par.dr) (l.chi * (conf c).par.dr) i j).map
                fun v => (⟨V3.norm v, (conf c).W (stru x) i j v, (geom (stru x)).mult i⟩ : Debye.Bond)).map fun b => (j, b) }, ?_, rfl, rfl, fun _ _ => rfl⟩
  refine ⟨fun _ => rfl, fun _ h => List.isEmpty_iff.1 h, fun _ _ => rfl, fun _ _ _ _ => rfl, fun _ => rfl, fun _ => rfl, fun _ => rfl, fun _ _ => rfl,
    fun c x => ⟨true, [], rfl⟩, fun c x l => ?_, fun c x l i sel h => ?_⟩
  · exact ⟨G c x l, fun i j b => (conf c).W (stru x) i j b.r01, (gen_exists (geom (stru x)) _ _).choose_spec,
      fun i _ j _ v _ _ => rfl, fun i sel h1 h2 => if_pos ⟨h1, h2⟩⟩
  · dsimp only
    rw [if_neg h]

/-- A box profile. -/
noncomputable def boxProf : Prof ℝ := ⟨fun w => -w, fun w => w, fun x w => if |x| < w then 1 else 0⟩

/-- A configuration with upper limit `c.1`: steps of 0.01, ripples of 2 or 1, extensions of at most 2, all peaks 0.1 wide, no mask. -/
noncomputable def exConf (c : ℝ × Bool) : PCfg :=
  ⟨⟨0, c.1, 1 / 100, 2⟩, if c.2 then 2 else 1, boxProf, fun _ => 1, fun _ _ _ _ => 1 / 10, fun _ _ _ _ => true⟩

/-- Less ripples. -/
def exLess (c : ℝ × Bool) : ℝ × Bool := (c.1, false)

theorem exLess_quiet (k : Cls (ℝ × Bool) S) (stru : S → RStru) (h : ∀ c x, k.cache c x = cacheOf (exConf c).lookup true [] (sitesOf (stru x))) (c : ℝ × Bool) :
    Quiet exConf k c (exLess c) := by
  refine ⟨rfl, ?_, fun x => by rw [h, h]; rfl⟩
  show (if false = true then (2 : ℝ) else 1) ≤ if c.2 = true then 2 else 1
  cases c.2 <;> norm_num

/-- The structures of any one class, with upper limits and ripples changed in between, are a regular use with cropped peaks in which every grid point is
looked at, ripples and tails fit into the maximal extension in some but not all, and evaluations with a change to less ripples without a click and any change with a click in between are a history as in the theorems. -/
example (cls : Kind Lat Sym → Prop) (hcls : ∀ a b, cls a → cls b → SameClass a b) (s : Sorter) :
    ∃ k : Cls (ℝ × Bool) {x : RStru // cls x.kind ∧ (geom x).Ok}, IsPDFCalculator s exConf (fun x => x.1) k ∧ Regular exConf (fun x => x.1) k ∧
      (∀ c, Cropped (exConf c).prof) ∧ (∀ c (n : ℤ), Seen (exConf c) n) ∧ (∀ c x, (exConf c).ripples + k.tails c x ≤ (exConf c).par.maxext ↔ c.2 = false) ∧
      ∀ x y f (jobs : ℕ), let ops : List (POp (ℝ × Bool) _) := [.eval x, .configure exLess false true, .eval y, .configure f true true, .eval x]
        Proper (Quiet exConf k) k (pcInit k (20, true) x 0 jobs) ops ∧
        taintAfter k.control (pcInit k (20, true) x 0 jobs).h false (ops.map POp.op) = false := by
  obtain ⟨k, hk, h1, h2, h3⟩ := calculator_exists s exConf (fun x : {x : RStru // cls x.kind ∧ (geom x).Ok} => x.1) (fun _ _ => 1 / 10) (fun _ => false)
  have hcr : ∀ c, Cropped (exConf c).prof := by
    intro c w _ x h
    show (if |x| < w then (1 : ℝ) else 0) = 0
    rw [if_neg]
    intro hx
    rw [abs_lt] at hx
    rcases h with h | h
    · exact absurd hx.1 (not_lt.2 h)
    · exact absurd hx.2 (not_lt.2 h)
  refine ⟨k, hk, ⟨fun x y _ => hcls _ _ x.2.1 y.2.1, fun x => x.2.2, fun c x => ?_, ?_, ?_, fun _ _ _ _ _ => rfl, fun _ _ _ _ _ _ _ _ => rfl⟩,
    hcr, fun c n => ⟨Or.inl ?_, Or.inr (hcr c)⟩, fun c x => ?_, fun x y f jobs => ⟨?_, ?_⟩⟩
  · rw [h1]
    refine ⟨le_refl _, ?_, ?_, ?_, ?_⟩
    · norm_num [exConf]
    · norm_num [exConf]
    · show (0 : ℝ) ≤ if c.2 = true then 2 else 1
      cases c.2 <;> norm_num
    · norm_num
  · intro c x i j _ _ v _ _
    rw [h1]
    exact ⟨by show (0 : ℝ) ≤ 1 / 10; norm_num, le_refl _, le_refl _⟩
  · intro c x lo hi
    exact Debye.reciprocal_distance _ x.2.2 lo hi (fun _ _ _ => 1 / 10) (fun _ _ _ => rfl)
  · show (0 : ℝ) - (if c.2 = true then 2 else 1) ≤ 0
    cases c.2 <;> norm_num
  · rw [h1]
    show (if c.2 = true then (2 : ℝ) else 1) + 1 / 10 ≤ 2 ↔ _
    cases c.2 <;> norm_num
  · refine proper_of (by simp) (proper_of ?_ (proper_of (by simp) (proper_of (by simp) (proper_of (by simp) proper_nil))))
    intro g r hg
    injection hg with hg1
    subst hg1
    exact exLess_quiet k _ h3 _
  · simp [taintAfter, taint, POp.op]

end Verif.PDFHist
