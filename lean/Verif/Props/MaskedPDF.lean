import Verif.Props.PDFModels
import Verif.Props.MaskCalls
/-! C92: the RDF and PDF of a PDFCalculator whose masks are set by the calls of the API. -/
namespace Verif.PDFHist
open Verif.Eval Verif.Diff Verif.KindDiff Verif.History Verif.PDFGrid Verif.PDFCache Verif.R3 Verif.Lattice Verif.Geo
open scoped BigOperators

variable {C S : Type}

/-- The types of the atoms of a structure. -/
def typesOf (x : RStru) : List String := x.atoms.map fun a => a.atomtype

/-- The configuration without masks. -/
def LCfg.unmasked (c : LCfg) : LCfg := { c with mask := fun _ _ _ _ => true }

/-- The configuration with the pairs that the mask calls let through: by the types of the two atoms or by the sites. -/
def LCfg.masked (c : LCfg) (m : Mask.State) : LCfg :=
  { c with mask := fun i j a b => Mask.maskOf m i j (a.map fun a => a.atomtype) (b.map fun a => a.atomtype) }

/-- `k` is the PDFCalculator in the configurations `lib` and after the mask calls `ms` (PairQuantity.cpp); `real c x` is its mask state when it evaluates
the structure `x`, after mask calls and structures before. -/
structure IsMaskedCalculator (s : Sorter) (lib : C → LCfg) (ms : C → Mask.State) (real : C → S → Mask.State) (stru : S → RStru) (k : Cls C S) : Prop where
  count : ∀ x, k.count x = (stru x).atoms.length
  empty : ∀ x, k.isEmpty x = true → (stru x).atoms = []
  diff : ∀ x y, k.diff x y = KindDiff.diff s false (stru x) (stru y)
  par : ∀ c, k.par c = (lib c).par
  ripples : ∀ c, k.ripples c = (lib c).p.ripples
  tails : ∀ c x, k.tails c x = (lib c).tails (stru x)
  prof : ∀ c, k.prof c = (lib c).ppf.prof
  custom : ∀ x c, k.custom x c = (c, false)
  gen : ∀ c x (l : Limits), ∃ gen, (geom (stru x)).IsGen (l.clo * (lib c).p.rstep) (l.chi * (lib c).p.rstep) gen ∧
    ∀ i sel, i < (geom (stru x)).cnt → (∀ j ∈ sel, j < (geom (stru x)).cnt) →
      k.gen c x l i sel = Debye.readGen (geom (stru x)).mult ((lib c).bondWidth (stru x)) gen i sel
  outside : ∀ c x (l : Limits) i sel, ¬ (i < (geom (stru x)).cnt ∧ ∀ j ∈ sel, j < (geom (stru x)).cnt) →
    (k.gen c x l i sel).Perm (sel.flatMap fun j => ((vecs (geom (stru x)) (l.clo * (lib c).p.rstep) (l.chi * (lib c).p.rstep) i j).map
      fun v => (⟨V3.norm v, (lib c).pcfg.W (stru x) i j v, (geom (stru x)).mult i⟩ : Debye.Bond)).map fun b => (j, b))
  runs : ∀ c x, ∃ m sord tord, Mask.Runs m (ms c) ∧ (Mask.Op.stru (typesOf (stru x)) sord tord).Valid m ∧
    real c x = Mask.setStructure sord tord m (typesOf (stru x))
  use : ∀ c x i j, k.use c x i j = Mask.getPairMask (real c x) i j
  cache : ∀ c x, k.cache c x = cacheOf (lib c).lookup (real c x).dflt (real c x).inv (sitesOf (stru x))
  pairMask : ∀ c x, k.hasPairMask c = Mask.hasPairMask (real c x)

/-- Structures with a positive number of atoms, none of a type with the name "all"; or no atoms. -/
def Typed (x : RStru) : Prop := Mask.allStr ∉ typesOf x ∧ (0 < atoms (sitesOf x) ∨ x.atoms = [])

/-- A configuration call of the API: either one of C90 that leaves the masks alone, or a mask call, which clicks when the mask state of the calculator says so. -/
def MApi (lib : C → LCfg) (ms : C → Mask.State) (c c' : C) (clicks : Bool) : Prop :=
  (ms c' = ms c ∧ Api (lib c).unmasked (lib c').unmasked clicks) ∨
  ((lib c').unmasked = (lib c).unmasked ∧ ∃ (op : Mask.Op) (real : Mask.State), Mask.Runs real (ms c) ∧ op.Simple (ms c) ∧ op.Consistent (ms c) ∧
    ms c' = Mask.step (ms c) op ∧ clicks = ((Mask.step real op).clicks != real.clicks))

/-- The configuration calls of a history are such calls. -/
def MCalled (lib : C → LCfg) (ms : C → Mask.State) (k : Cls C S) (s : PC C S) (ops : List (POp C S)) : Prop :=
  ∀ pre f clicks r post, ops = pre ++ POp.configure f clicks r :: post →
    MApi lib ms (pcRun k s pre).h.cfg (f (pcRun k s pre).h.cfg) clicks

theorem typesOf_get (x : RStru) (i : ℕ) : (typesOf x)[i]? = x.atoms[i]?.map fun a => a.atomtype := List.getElem?_map ..

theorem mask_real {s : Sorter} {lib : C → LCfg} {ms : C → Mask.State} {real : C → S → Mask.State} {stru : S → RStru} {k : Cls C S}
    (hk : IsMaskedCalculator s lib ms real stru k) (ht : ∀ x, Typed (stru x)) (c : C) (x : S) (i j : ℕ) :
    Mask.getPairMask (real c x) i j = ((lib c).masked (ms c)).mask i j (stru x).atoms[i]? (stru x).atoms[j]? := by
  obtain ⟨m, so, td, h1, h2, h3⟩ := hk.runs c x
  rw [h3, Mask.mask_in_evaluation h1 _ (ht x).1 so td h2 i j, typesOf_get, typesOf_get]
  rfl

theorem real_reach {s : Sorter} {lib : C → LCfg} {ms : C → Mask.State} {real : C → S → Mask.State} {stru : S → RStru} {k : Cls C S}
    (hk : IsMaskedCalculator s lib ms real stru k) (c : C) (x : S) : Mask.Runs (real c x) (ms c) := by
  obtain ⟨m, so, td, h1, h2, h3⟩ := hk.runs c x
  rw [h3]
  exact Mask.Runs.stru h1 _ so td h2

theorem cache_cong (lookup : String → ℝ) (d d' : Bool) (inv inv' : List (Int × Int)) (sites : List Debye.Site)
    (h : (cacheOf lookup d inv sites).activeocc = (cacheOf lookup d' inv' sites).activeocc) : cacheOf lookup d inv sites = cacheOf lookup d' inv' sites := by
  unfold cacheOf at h ⊢
  dsimp only at h ⊢
  rw [h]

/-- The cached data depend on the masks only through the pairs of sites of the structure that they let through. -/
theorem cache_masks (lookup : String → ℝ) (m m' : Mask.State) (h : Mask.Reach m) (h' : Mask.Reach m') (x : RStru) (hx : 0 < atoms (sitesOf x) ∨ x.atoms = [])
    (e : ∀ i j : ℕ, i < x.atoms.length → j < x.atoms.length → Mask.getPairMask m i j = Mask.getPairMask m' i j) :
    cacheOf lookup m.dflt m.inv (sitesOf x) = cacheOf lookup m'.dflt m'.inv (sitesOf x) := by
  refine cache_cong _ _ _ _ _ _ ?_
  rcases hx with hx | hx
  · have hl : (sitesOf x).length = x.atoms.length := by simp [sitesOf]
    rw [activeocc_spec _ _ h _ hx, activeocc_spec _ _ h' _ hx]
    congr 1
    unfold activeFraction
    congr 1
    refine Finset.sum_congr rfl fun i hi => Finset.sum_congr rfl fun j hj => ?_
    rw [hl, Finset.mem_range] at hi hj
    simp only [e i j hi hj]
  · have hs : sitesOf x = [] := by simp [sitesOf, hx]
    have hz : ∀ inv, invMaskTotal [] inv = 0 := by
      intro inv
      unfold invMaskTotal
      induction inv with
      | nil => rfl
      | cons p inv ih =>
        rw [List.foldl_cons, if_pos]
        · exact ih
        · simp only [List.length_nil, Nat.cast_zero]; omega
    have ht : Debye.totalOccupancy ([] : List Debye.Site) = 0 := rfl
    rw [hs]
    unfold cacheOf
    dsimp only
    rw [hz, hz, ht]
    simp

theorem masked_library {s : Sorter} {lib : C → LCfg} {ms : C → Mask.State} {real : C → S → Mask.State} {stru : S → RStru} {k : Cls C S}
    (hk : IsMaskedCalculator s lib ms real stru k) (ht : ∀ x, Typed (stru x)) :
    IsLibraryCalculator s (fun c => (lib c).masked (ms c)) stru k where
  count := hk.count
  empty := hk.empty
  diff := hk.diff
  use := fun c x i j => (hk.use c x i j).trans (mask_real hk ht c x i j)
  par := hk.par
  ripples := hk.ripples
  tails := hk.tails
  prof := hk.prof
  custom := hk.custom
  cache := fun c x => ⟨_, _, hk.cache c x⟩
  cacheSame := fun c c' x h1 h2 => by
    rw [hk.cache, hk.cache, show (lib c).lookup = (lib c').lookup from h1]
    refine cache_masks _ _ _ (Mask.runs_rel (real_reach hk c x)).1 (Mask.runs_rel (real_reach hk c' x)).1 _ (ht x).2 fun i j _ _ => ?_
    rw [mask_real hk ht, mask_real hk ht, h2]
  gen := hk.gen
  outside := hk.outside

theorem masked_usual {s : Sorter} {lib : C → LCfg} {ms : C → Mask.State} {real : C → S → Mask.State} {stru : S → RStru} {k : Cls C S}
    (hk : IsMaskedCalculator s lib ms real stru k) (hu : Usual (fun c => (lib c).unmasked) stru k) [Nonempty S] :
    Usual (fun c => (lib c).masked (ms c)) stru k where
  cls := hu.cls
  geo := hu.geo
  rmin := hu.rmin
  step := hu.step
  ext := hu.ext
  qmax := hu.qmax
  pwm := hu.pwm
  ppf := hu.ppf
  disp := hu.disp
  wide := hu.wide
  short := hu.short
  mask := fun c i j _ _ => Mask.maskOf_comm (real_reach hk c (Classical.arbitrary S)).called i j _ _
  types := fun c h i j i' j' _ _ => Mask.maskOf_types
    (((Mask.runs_hasPairMask (real_reach hk c (Classical.arbitrary S))).symm.trans (hk.pairMask c _).symm).trans h) i j i' j' _ _

theorem api_masked {a b : LCfg} {cl : Bool} (h : Api a.unmasked b.unmasked cl) (m : Mask.State) : Api (a.masked m) (b.masked m) cl := by
  have key : ∀ {a b : LCfg} {cl : Bool}, Api a b cl → ∀ f, Api { a with mask := f } { b with mask := f } cl := by
    intro a b cl h f
    cases h with
    | set op p' hp => exact Api.set { a with mask := f } op p' hp
    | rejected op p' hp => exact Api.rejected { a with mask := f } op p' hp
    | width w => exact Api.width { a with mask := f } w
    | profile g => exact Api.profile { a with mask := f } g
    | profileByType t => exact Api.profileByType { a with mask := f } t
    | precision eps => exact Api.precision { a with mask := f } eps
    | factors l => exact Api.factors { a with mask := f } l
    | masks g => exact Api.masks { a with mask := f } f
    | same => exact Api.same { a with mask := f }
  exact key h _

theorem masked_called {lib : C → LCfg} {ms : C → Mask.State} {k : Cls C S} {st : PC C S} {ops : List (POp C S)}
    (h : MCalled lib ms k st ops) : Called (fun c => (lib c).masked (ms c)) k st ops := by
  intro pre f clicks r post e
  rcases h pre f clicks r post e with ⟨h1, h2⟩ | ⟨h1, op, real, h2, h3, h4, h5, h6⟩
  · dsimp only
    rw [h1]
    exact api_masked h2 _
  · generalize (pcRun k st pre).h.cfg = c at *
    have hl : ∀ m, (lib (f c)).masked m = (lib c).masked m := by
      intro m
      have : ∀ a : LCfg, a.masked m = a.unmasked.masked m := fun _ => rfl
      rw [this, h1, ← this]
    dsimp only
    rw [hl, h5, h6]
    by_cases hc : (Mask.step real op).clicks = real.clicks
    · have e1 : (lib c).masked (Mask.step (ms c) op) = (lib c).masked (ms c) := by
        unfold LCfg.masked
        rw [Mask.mask_call_quiet h2 op h3 h4 hc]
      rw [e1, hc, bne_self_eq_false]
      exact Api.same _
    · rw [bne_iff_ne.2 hc]
      exact Api.masks ((lib c).masked (ms c)) _

/-- The RDF at `n·dr` as C90 has it, with the pairs of the mask calls. -/
noncomputable def maskedRDF (c : LCfg) (m : Mask.State) (x : RStru) (T : ℝ → V3 → ℝ) : ℝ :=
  struRDF (c.masked m).pcfg x (counted (c.masked m).pcfg (c.tails x) T)

/-- **C92**. After any history of evaluations, configuration calls, mask calls and `setStructure` calls, the RDF of a calculator is the sum of the peaks
over the pairs that the mask calls let through. -/
theorem masked_rdf_partial (s : Sorter) (hs : SortSpec s) (lib : C → LCfg) (ms : C → Mask.State) (real : C → S → Mask.State) (stru : S → RStru)
    (k : Cls C S) (hk : IsMaskedCalculator s lib ms real stru k) (hu : Usual (fun c => (lib c).unmasked) stru k) (hty : ∀ x, Typed (stru x)) (c : C) (e : S)
    (ops : List (POp C S)) (ha : MCalled lib ms k (pcInit k c e 0 1) ops)
    (ht : taintAfter k.control (pcInit k c e 0 1).h false (ops.map POp.op) = false) (x : S) :
    let r := pcEval k (pcRun k (pcInit k c e 0 1) ops) x
    let cf := lib r.h.cfg
    ∃ z, getRDF k r = some z ∧ z.length = (rgrid cf.p.rmin cf.p.rmax cf.p.rstep).length ∧
      ∀ (m : ℕ) (n : ℤ), (rgrid cf.p.rmin cf.p.rmax cf.p.rstep)[m]? = some ((n : ℝ) * cf.p.rstep) →
        (cf.p.rmin - cf.p.ripples ≤ 0 ∨ cf.p.rmin - cf.p.ripples + cf.p.rstep ≤ (n : ℝ) * cf.p.rstep) →
        ((∃ g, cf.ppf = .cropped g) ∨ ((n : ℝ) + 1) * cf.p.rstep ≤ cf.p.rmax + cf.p.ripples) →
        z[m]? = some (maskedRDF cf (ms r.h.cfg) (stru x) (drawnTerm cf.ppf cf.p.rstep n)) :=
  haveI : Nonempty S := ⟨x⟩
  library_rdf_partial s hs _ stru k (masked_library hk hty) (masked_usual hk hu) c e ops (masked_called ha) ht x

/-- **C92**, output. G(r) and F(Q) of such a calculator with the cropped profile; the baseline too has the fraction of pairs let through. -/
theorem masked_pdf_partial (s : Sorter) (hs : SortSpec s) (lib : C → LCfg) (ms : C → Mask.State) (real : C → S → Mask.State) (stru : S → RStru)
    (k : Cls C S) (hk : IsMaskedCalculator s lib ms real stru k) (hu : Usual (fun c => (lib c).unmasked) stru k) (hty : ∀ x, Typed (stru x)) (c : C) (e : S)
    (b : Baseline) (ops : List (OOp C S)) (ha : MCalled lib ms k (pcInit k c e 0 1) (calls ops))
    (ht : taintAfter k.control (pcInit k c e 0 1).h false ((calls ops).map POp.op) = false) (x : S) (hpos : 0 < atoms (sitesOf (stru x)))
    (qmin qmax : ℝ) (hq : Fft.QOk qmin qmax) :
    let density := fun x => densityOf (geom (stru x)).mult (stru x)
    let r := ocEval k density (ocRun k density (ocInit k density c e b 0 1) ops) x
    let cf := (lib r.pc.h.cfg).masked (ms r.pc.h.cfg)
    let t := cf.tails (stru x)
    rgrid cf.p.rmin cf.p.rmax cf.p.rstep ≠ [] → 1 / 2 ^ 26 < qStep (cf.pcfg.given t) → cf.p.rmin ≤ cf.p.ripples → (∃ g, cf.ppf = .cropped g) →
    Output (cf.pcfg.given t) qmin qmax (fun n => struRDF cf.pcfg (stru x) (counted cf.pcfg t (peakTerm cf.ppf ((n : ℝ) * cf.p.rstep))) / ((n : ℝ) * cf.p.rstep) +
        baseOf cf.pcfg (stru x) (lastBase b ops) ((n : ℝ) * cf.p.rstep))
      (baseOf cf.pcfg (stru x) (lastBase b ops) 0 = 0) (getPDF k r qmin qmax) (getF k r qmax) :=
  haveI : Nonempty S := ⟨x⟩
  library_pdf_partial s hs _ stru k (masked_library hk hty) (masked_usual hk hu) real
    ⟨fun c x => (Mask.runs_rel (real_reach hk c x)).1, hk.cache, fun c x i j _ _ => mask_real hk hty c x i j⟩ c e b ops (masked_called ha) ht x hpos qmin qmax hq

/-! ### The hypotheses can be met -/

/-- There is such a calculator for all configurations, mask calls and structures. -/
theorem masked_exists (s : Sorter) (lib : C → LCfg) (ms : C → Mask.State) (hm : ∀ c, Mask.Called (ms c)) (stru : S → RStru) :
    ∃ k : Cls C S, IsMaskedCalculator s lib ms (fun c x => Mask.setStructure (ms c).site (ms c).typ (ms c) (typesOf (stru x))) stru k := by
  obtain ⟨k, hk, hp⟩ := library_exists s lib stru fun c => Mask.hasPairMask (ms c)
  have hv : ∀ c x, (Mask.Op.stru (typesOf (stru x)) (ms c).site (ms c).typ).Valid (ms c) := fun _ _ => ⟨List.Perm.refl _, List.Perm.refl _⟩
  refine ⟨{ k with
            use := fun c x i j => Mask.getPairMask (Mask.setStructure (ms c).site (ms c).typ (ms c) (typesOf (stru x))) i j
            cache := fun c x => cacheOf (lib c).lookup (Mask.setStructure (ms c).site (ms c).typ (ms c) (typesOf (stru x))).dflt
              (Mask.setStructure (ms c).site (ms c).typ (ms c) (typesOf (stru x))).inv (sitesOf (stru x)) }, ?_⟩
  exact {
    count := hk.count, empty := hk.empty, diff := hk.diff, par := hk.par, ripples := hk.ripples, tails := hk.tails, prof := hk.prof, custom := hk.custom
    gen := hk.gen, outside := hk.outside
    runs := fun c x => ⟨ms c, _, _, (hm c).runs, hv c x, rfl⟩
    use := fun _ _ _ _ => rfl
    cache := fun _ _ => rfl
    pairMask := fun c x => by
      show k.hasPairMask c = _
      rw [hp]
      exact (Mask.runs_hasPairMask (Mask.Runs.stru (hm c).runs _ _ _ (hv c x))).symm }

/-- The configuration of the example. -/
noncomputable abbrev exMaskLib (c : (ℝ × Bool) × {m : Mask.State // Mask.Called m}) : LCfg := exLib c.1

/-- Its mask calls. -/
abbrev exMask (c : (ℝ × Bool) × {m : Mask.State // Mask.Called m}) : Mask.State := c.2.1

/-- A call of `invertMask()`. -/
def exInvert (c : (ℝ × Bool) × {m : Mask.State // Mask.Called m}) : (ℝ × Bool) × {m : Mask.State // Mask.Called m} :=
  (c.1, ⟨_, Mask.Called.step c.2.2 .invert trivial trivial⟩)

/-- Structures of one class with isotropic displacements, with any masks set by the calls, evaluated before and after `invertMask()`. -/
example (cls : Kind Lat Sym → Prop) (hcls : ∀ a b, cls a → cls b → SameClass a b) (s : Sorter) :
    ∃ k : Cls ((ℝ × Bool) × {m : Mask.State // Mask.Called m}) {x : RStru // ExStru cls x ∧ Typed x},
      IsMaskedCalculator s exMaskLib exMask (fun c x => Mask.setStructure (exMask c).site (exMask c).typ (exMask c) (typesOf x.1)) (fun x => x.1) k ∧
      Usual (fun c => (exMaskLib c).unmasked) (fun x => x.1) k ∧ (∀ x : {x : RStru // ExStru cls x ∧ Typed x}, Typed x.1) ∧
      (∀ c, ∃ g, (exMaskLib c).ppf = .cropped g) ∧
      ∀ c x y, let ops : List (POp _ {x : RStru // ExStru cls x ∧ Typed x}) := [.eval x, .configure exInvert true true, .eval y]
        MCalled exMaskLib exMask k (pcInit k c x 0 1) ops ∧ taintAfter k.control (pcInit k c x 0 1).h false (ops.map POp.op) = false := by
  obtain ⟨k, hk⟩ := masked_exists s exMaskLib exMask (fun c => c.2.2) (fun x : {x : RStru // ExStru cls x ∧ Typed x} => x.1)
  have hu : Usual (fun c => (exMaskLib c).unmasked) (fun x : {x : RStru // ExStru cls x ∧ Typed x} => x.1) k :=
    exLib_usual cls hcls (fun c : (ℝ × Bool) × {m : Mask.State // Mask.Called m} => c.1) (fun x : {x : RStru // ExStru cls x ∧ Typed x} => x.1) (fun x => x.2.1) k
  refine ⟨k, hk, hu, fun x => x.2.2, fun _ => ⟨_, rfl⟩, fun c x y => ⟨?_, ?_⟩⟩
  · intro pre f cl r post e
    obtain rfl | ⟨o, rfl⟩ : pre = [.eval x] ∨ False := by
      rcases pre with _ | ⟨o, _ | ⟨o', _ | ⟨o'', pre⟩⟩⟩
      · simp at e
      · left
        simp only [List.cons_append, List.nil_append, List.cons.injEq] at e
        rw [← e.1]
      · simp at e
      · simp at e
    simp only [List.cons_append, List.nil_append, List.cons.injEq, POp.configure.injEq] at e
    obtain ⟨-, ⟨rfl, rfl, rfl⟩, -⟩ := e
    generalize (pcRun k (pcInit k c x 0 1) [.eval x]).h.cfg = c
    exact Or.inr ⟨rfl, .invert, exMask c, c.2.2.runs, trivial, trivial, rfl, by simp [Mask.step, Mask.invertMask, Mask.State.click]⟩
  · simp [taintAfter, taint, POp.op]

/-- Two oxygen atoms and a carbon atom: after `maskAllPairs(false)` and `setTypeMask("O", "O", true)` only the pairs of oxygen atoms are let through. -/
example (c : LCfg) (x : RStru) (i j : ℕ) :
    let m := Mask.setTypeMask (Mask.maskAllPairs Mask.init false) "O" "O" true
    (c.masked m).mask i j x.atoms[i]? x.atoms[j]? = true ↔ (typesOf x)[i]? = some "O" ∧ (typesOf x)[j]? = some "O" := by
  intro m
  have ht : Mask.hasTypeMask m = true := by decide +kernel
  have hd : m.dflt = false := by decide +kernel
  have htyp : m.typ = [(("O", "O"), true)] := by decide +kernel
  rw [typesOf_get, typesOf_get]
  show Mask.maskOf m i j _ _ = true ↔ _
  unfold Mask.maskOf
  rw [if_pos ht]
  generalize x.atoms[i]?.map _ = a
  generalize x.atoms[j]?.map _ = b
  cases a with
  | none => simp [hd]
  | some a =>
    cases b with
    | none => simp [hd]
    | some b =>
      show Mask.getTypeMask m a b = true ↔ _
      have hf : ∀ a b : String, AssocMap.find m.typ (Mask.tnorm a b) = if a = "O" ∧ b = "O" then some true else none := by
        intro a b
        rw [htyp, AssocMap.find_cons, AssocMap.find_nil]
        have e : (("O", "O") = Mask.tnorm a b) ↔ (a = "O" ∧ b = "O") := by
          rw [show ("O", "O") = Mask.tnorm "O" "O" by decide +kernel, Mask.tnorm_eq_iff]
          constructor
          · rintro (⟨h1, h2⟩ | ⟨h1, h2⟩) <;> exact ⟨by first | exact h1.symm | exact h2.symm, by first | exact h2.symm | exact h1.symm⟩
          · rintro ⟨rfl, rfl⟩; exact Or.inl ⟨rfl, rfl⟩
        simp only [e]
      unfold Mask.getTypeMask
      have ha : Mask.allStr ≠ "O" := by decide +kernel
      rw [hf, hf, hf, hd]
      by_cases h : a = "O" ∧ b = "O"
      · rw [if_pos h]; simp [h.1, h.2]
      · rw [if_neg h, if_neg fun h => ha h.2, if_neg fun h => ha h.2]
        simpa using h

end Verif.PDFHist
