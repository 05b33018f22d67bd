import Verif.Props.DebyeModels
import Verif.Props.MaskedPDF
/-! C92 for DebyePDFCalculator: F(Q) and G(r) with masks set by the calls of the API. -/
namespace Verif.DebyeHist
open Verif.Eval Verif.Diff Verif.KindDiff Verif.History Verif.Debye Verif.R3 Verif.Lattice Verif.Geo Verif.Setters
open Verif.PDFHist (sitesOf Displaced pairWidth POp typesOf typesOf_get)

variable {C S : Type}

/-- The configuration without masks. -/
def DLCfg.unmasked (c : DLCfg) : DLCfg := { c with mask := fun _ _ _ _ => true }

/-- The configuration with the pairs that the mask calls let through: by the types of the two atoms or by the sites. -/
def DLCfg.masked (c : DLCfg) (m : Mask.State) : DLCfg :=
  { c with mask := fun i j a b => Mask.maskOf m i j (a.map fun a => a.atomtype) (b.map fun a => a.atomtype) }

/-- `k` is the DebyePDFCalculator in the configurations `lib` and after the mask calls `ms`; `real c x` is its mask state when it evaluates the
structure `x`, after mask calls and structures before. -/
structure IsMaskedDebye (s : Sorter) (lib : C → DLCfg) (ms : C → Mask.State) (real : C → S → Mask.State) (stru : S → RStru) (k : Cls C S) : Prop where
  inj : ∀ x c, (lib (k.reset x c).1).unmasked = (lib c).unmasked → (k.reset x c).1 = c
  keeps : ∀ x c, ms (k.reset x c).1 = ms c
  count : ∀ x, k.count x = (stru x).atoms.length
  diff : ∀ x y, k.diff x y = KindDiff.diff s false (stru x) (stru y)
  par : ∀ c, k.par c = (lib c).d.q
  cache : ∀ c x, k.cache c x = cacheOf (lib c).d.q (sfPDF (lib c).lookup (sitesOf (stru x))) (sitesOf (stru x))
  avg : ∀ c x, k.avg c x = sfAverage (lib c).d.q (k.cache c x) (sitesOf (stru x))
  totocc : ∀ x, k.totocc x = totalOccupancy (sitesOf (stru x))
  custom : k.custom = k.reset
  reset : ∀ x c, ∃ d', dstep ((lib c).tails (stru x)) (lib c).d .reset = .ok d' ∧
    (lib (k.reset x c).1).unmasked = { (lib c).unmasked with d := d' } ∧ (k.reset x c).2 = decide (d'.clicks ≠ (lib c).d.clicks)
  gen : ∀ c x, (lib c).d.cached = true → ∃ gen, (geom (stru x)).IsGen (lib c).d.rcalclo (lib c).d.rcalchi gen ∧
    ∀ i sel, i < (geom (stru x)).cnt → (∀ j ∈ sel, j < (geom (stru x)).cnt) →
      k.gen c x i sel = readGen (geom (stru x)).mult ((lib c).bondWidth (stru x)) gen i sel
  outside : ∀ c x i sel, (lib c).d.cached = true → ¬ (i < (geom (stru x)).cnt ∧ ∀ j ∈ sel, j < (geom (stru x)).cnt) →
    (k.gen c x i sel).Perm (sel.flatMap fun j => ((vecs (geom (stru x)) (lib c).d.rcalclo (lib c).d.rcalchi i j).map
      fun v => (⟨V3.norm v, (lib c).dcfg.W (stru x) i j v, (geom (stru x)).mult i⟩ : Bond)).map fun b => (j, b))
  runs : ∀ c x, ∃ m sord tord, Mask.Runs m (ms c) ∧ (Mask.Op.stru (typesOf (stru x)) sord tord).Valid m ∧
    real c x = Mask.setStructure sord tord m (typesOf (stru x))
  use : ∀ c x i j, k.use c x i j = Mask.getPairMask (real c x) i j
  pairMask : ∀ c x, k.hasPairMask c = Mask.hasPairMask (real c x)

/-- A configuration call of the API: either one of C91 that leaves the masks alone, or a mask call, which clicks when the mask state of the calculator says so. -/
def MApi (lib : C → DLCfg) (ms : C → Mask.State) (c c' : C) (clicks : Bool) : Prop :=
  (ms c' = ms c ∧ DApi (lib c).unmasked (lib c').unmasked clicks) ∨
  ((lib c').unmasked = (lib c).unmasked ∧ ∃ (op : Mask.Op) (real : Mask.State), Mask.Runs real (ms c) ∧ op.Simple (ms c) ∧ op.Consistent (ms c) ∧
    ms c' = Mask.step (ms c) op ∧ clicks = ((Mask.step real op).clicks != real.clicks))

/-- The configuration calls of a history are such calls. -/
def MCalled (lib : C → DLCfg) (ms : C → Mask.State) (k : Cls C S) (s : DC C S) (ops : List (POp C S)) : Prop :=
  ∀ pre f clicks r post, ops = pre ++ POp.configure f clicks r :: post →
    MApi lib ms (dcRun k s pre).h.cfg (f (dcRun k s pre).h.cfg) clicks

theorem masked_eq {a b : DLCfg} (h : a.unmasked = b.unmasked) (m : Mask.State) : a.masked m = b.masked m := by
  have : ∀ a : DLCfg, a.masked m = a.unmasked.masked m := fun _ => rfl
  rw [this, h, ← this]

theorem unmasked_eq {a b : DLCfg} {m m' : Mask.State} (h : a.masked m = b.masked m') : a.unmasked = b.unmasked := by
  have : ∀ (a : DLCfg) m, (a.masked m).unmasked = a.unmasked := fun _ _ => rfl
  rw [← this a m, h, this]

theorem real_runs {s : Sorter} {lib : C → DLCfg} {ms : C → Mask.State} {real : C → S → Mask.State} {stru : S → RStru} {k : Cls C S}
    (hk : IsMaskedDebye s lib ms real stru k) (c : C) (x : S) : Mask.Runs (real c x) (ms c) := by
  obtain ⟨m, so, td, h1, h2, h3⟩ := hk.runs c x
  rw [h3]
  exact Mask.Runs.stru h1 _ so td h2

theorem masked_debye {s : Sorter} {lib : C → DLCfg} {ms : C → Mask.State} {real : C → S → Mask.State} {stru : S → RStru} {k : Cls C S}
    (hk : IsMaskedDebye s lib ms real stru k) (ht : ∀ x, Mask.allStr ∉ typesOf (stru x)) :
    IsLibraryDebye s (fun c => (lib c).masked (ms c)) stru k where
  inj x c h := hk.inj x c (unmasked_eq h)
  count := hk.count
  diff := hk.diff
  use c x i j := by
    obtain ⟨m, so, td, h1, h2, h3⟩ := hk.runs c x
    rw [hk.use, h3, Mask.mask_in_evaluation h1 _ (ht x) so td h2 i j, typesOf_get, typesOf_get]
    rfl
  par := hk.par
  cache := hk.cache
  avg := hk.avg
  totocc := hk.totocc
  custom := hk.custom
  reset x c := by
    obtain ⟨d', h1, h2, h3⟩ := hk.reset x c
    refine ⟨d', h1, ?_, h3⟩
    dsimp only
    rw [hk.keeps, masked_eq (b := { lib c with d := d' }) h2]
    rfl
  gen := hk.gen
  outside := hk.outside

theorem masked_usual_debye {s : Sorter} {lib : C → DLCfg} {ms : C → Mask.State} {real : C → S → Mask.State} {stru : S → RStru} {k : Cls C S}
    (hk : IsMaskedDebye s lib ms real stru k) (hu : UsualDebye (fun c => (lib c).unmasked) stru k) [Nonempty S] :
    UsualDebye (fun c => (lib c).masked (ms c)) stru k where
  cls := hu.cls
  geo := hu.geo
  occ := hu.occ
  good := hu.good
  pwm := hu.pwm
  disp := hu.disp
  even := hu.even
  mask := fun c i j _ _ => Mask.maskOf_comm (real_runs hk c (Classical.arbitrary S)).called i j _ _
  types := fun c h i j i' j' _ _ => Mask.maskOf_types
    (((Mask.runs_hasPairMask (real_runs hk c (Classical.arbitrary S))).symm.trans (hk.pairMask c _).symm).trans h) i j i' j' _ _
  optimum := hu.optimum
  low := hu.low
  wide := hu.wide

theorem dapi_masked {a b : DLCfg} {cl : Bool} (h : DApi a.unmasked b.unmasked cl) (m : Mask.State) : DApi (a.masked m) (b.masked m) cl := by
  have key : ∀ {a b : DLCfg} {cl : Bool}, DApi a b cl → ∀ f, DApi { a with mask := f } { b with mask := f } cl := by
    intro a b cl h f
    cases h with
    | set x op hp => exact DApi.set { a with mask := f } x op hp
    | width w => exact DApi.width { a with mask := f } w
    | factors l => exact DApi.factors { a with mask := f } l
    | masks g => exact DApi.masks { a with mask := f } f
    | same => exact DApi.same { a with mask := f }
  exact key h _

theorem masked_called {lib : C → DLCfg} {ms : C → Mask.State} {k : Cls C S} {st : DC C S} {ops : List (POp C S)}
    (h : MCalled lib ms k st ops) : Called (fun c => (lib c).masked (ms c)) k st ops := by
  intro pre f clicks r post e
  rcases h pre f clicks r post e with ⟨h1, h2⟩ | ⟨h1, op, real, h2, h3, h4, h5, h6⟩
  · dsimp only
    rw [h1]
    exact dapi_masked h2 _
  · generalize (dcRun k st pre).h.cfg = c at *
    dsimp only
    rw [masked_eq h1, h5, h6]
    by_cases hc : (Mask.step real op).clicks = real.clicks
    · have e1 : (lib c).masked (Mask.step (ms c) op) = (lib c).masked (ms c) := by
        unfold DLCfg.masked
        rw [Mask.mask_call_quiet h2 op h3 h4 hc]
      rw [e1, hc, bne_self_eq_false]
      exact DApi.same _
    · rw [bne_iff_ne.2 hc]
      exact DApi.masks ((lib c).masked (ms c)) _

/-- **C92**, DebyePDFCalculator. F(Q) is within the precision the Debye sum over the pairs that the mask calls let through. -/
theorem masked_F_partial (s : Sorter) (hs : SortSpec s) (lib : C → DLCfg) (ms : C → Mask.State) (real : C → S → Mask.State) (stru : S → RStru)
    (k : Cls C S) (hk : IsMaskedDebye s lib ms real stru k) (hu : UsualDebye (fun c => (lib c).unmasked) stru k)
    (hty : ∀ x, Mask.allStr ∉ typesOf (stru x)) (c : C) (e : S) (ops : List (POp C S)) (ha : MCalled lib ms k (dcInit k c e 0 1) ops) (x : S)
    (ht : strayed lib k (dcInit k c e 0 1) (ops ++ [.eval x]) = false) :
    let r := dcEval k (dcRun k (dcInit k c e 0 1) ops) x
    let cf := lib r.h.cfg
    let a := sitesOf (stru x)
    let use := fun i j => Mask.maskOf (ms r.h.cfg) i j (typesOf (stru x))[i]? (typesOf (stru x))[j]?
    (∀ t (q q' : ℝ), 0 ≤ q → q ≤ q' → |cf.lookup t q'| ≤ |cf.lookup t q|) → 1 / 2 ^ 26 < atomCount a → 0 ≤ cf.d.q.prec →
    ∃ F, getF k r = some F ∧ F.length = ⌈cf.d.q.qmax / cf.d.q.qstep⌉.toNat ∧ ∀ m < F.length,
      let q := (m : ℝ) * cf.d.q.qstep
      let n := atomCount a * meanFactor cf.lookup a q ^ 2
      ∃ y, F[m]? = some y ∧ (meanFactor cf.lookup a q = 0 → y = 0) ∧ (meanFactor cf.lookup a q ≠ 0 →
        |y - struSum (geom (stru x)) cf.d.rcalclo cf.d.rcalchi (siteFactor cf.lookup a q)
            (fun i j => pairWidth cf.pwm (stru x).atoms[i]? (stru x).atoms[j]?) use q / n| ≤
          cf.d.q.prec * (bondCount (geom (stru x)) cf.d.rcalclo cf.d.rcalchi use : ℝ) / n) := by
  intro r cf a use
  have : Nonempty S := ⟨x⟩
  have h := library_F_partial s hs _ stru k (masked_debye hk hty) (masked_usual_debye hk hu) c e ops (masked_called ha) x ht
  have hu : use = fun i j => (cf.masked (ms r.h.cfg)).mask i j (stru x).atoms[i]? (stru x).atoms[j]? := by
    funext i j
    show Mask.maskOf _ i j _ _ = _
    rw [typesOf_get, typesOf_get]
    rfl
  rw [hu]
  exact h

/-- **C92**, DebyePDFCalculator. Value and F(Q) are those of a new calculator with the same configuration and masks, exactly. -/
theorem masked_fresh_partial (s : Sorter) (hs : SortSpec s) (lib : C → DLCfg) (ms : C → Mask.State) (real : C → S → Mask.State) (stru : S → RStru)
    (k : Cls C S) (hk : IsMaskedDebye s lib ms real stru k) (hu : UsualDebye (fun c => (lib c).unmasked) stru k)
    (hty : ∀ x, Mask.allStr ∉ typesOf (stru x)) (c : C) (e e' : S) (ops : List (POp C S)) (ha : MCalled lib ms k (dcInit k c e 0 1) ops) (x : S)
    (ht : strayed lib k (dcInit k c e 0 1) (ops ++ [.eval x]) = false) :
    let r := dcEval k (dcRun k (dcInit k c e 0 1) ops) x
    let f := dcEval k (dcInit k r.h.cfg e' 0 1) x
    f.h.cfg = r.h.cfg ∧ f.d.value = r.d.value ∧ getF k f = getF k r := by
  intro r f
  have : Nonempty S := ⟨x⟩
  have h := library_fresh_partial s hs _ stru k (masked_debye hk hty) (masked_usual_debye hk hu) c e e' ops (masked_called ha) x ht
  exact ⟨h.1, h.2.1, h.2.2.1⟩

/-- There is such a calculator for all configurations, mask calls and structures. -/
theorem masked_debye_exists (s : Sorter) (lib : C → DLCfg) (ms : C → Mask.State) (hm : ∀ c, Mask.Called (ms c)) (stru : S → RStru)
    (hlib : ∀ c, (lib c).unmasked = lib c) (reset : S → C → C × Bool) (hinj : ∀ x c, lib (reset x c).1 = lib c → (reset x c).1 = c)
    (hkeep : ∀ x c, ms (reset x c).1 = ms c)
    (hreset : ∀ x c, ∃ d', dstep ((lib c).tails (stru x)) (lib c).d .reset = .ok d' ∧ lib (reset x c).1 = { lib c with d := d' } ∧
      (reset x c).2 = decide (d'.clicks ≠ (lib c).d.clicks)) :
    ∃ k : Cls C S, IsMaskedDebye s lib ms (fun c x => Mask.setStructure (ms c).site (ms c).typ (ms c) (typesOf (stru x))) stru k ∧ k.reset = reset := by
  have hv : ∀ c x, (Mask.Op.stru (typesOf (stru x)) (ms c).site (ms c).typ).Valid (ms c) := fun _ _ => ⟨List.Perm.refl _, List.Perm.refl _⟩
  obtain ⟨k, hk, hp, hr⟩ := library_debye_exists s lib stru (fun c => Mask.hasPairMask (ms c)) reset hinj hreset
  refine ⟨{ k with use := fun c x i j => Mask.getPairMask (Mask.setStructure (ms c).site (ms c).typ (ms c) (typesOf (stru x))) i j }, ?_, hr⟩
  exact {
    inj := fun x c h => by
      rw [hlib, hlib] at h
      exact hk.inj x c h
    keeps := fun x c => by
      show ms (k.reset x c).1 = _
      rw [hr, hkeep]
    count := hk.count, diff := hk.diff, par := hk.par, cache := hk.cache, avg := hk.avg, totocc := hk.totocc, custom := hk.custom
    reset := fun x c => by
      obtain ⟨d', h1, h2, h3⟩ := hk.reset x c
      exact ⟨d', h1, by rw [hlib, hlib]; exact h2, h3⟩
    gen := hk.gen, outside := hk.outside
    runs := fun c x => ⟨ms c, _, _, (hm c).runs, hv c x, rfl⟩
    use := fun _ _ _ _ => rfl
    pairMask := fun c x => by
      show k.hasPairMask c = _
      rw [hp]
      exact (Mask.runs_hasPairMask (Mask.Runs.stru (hm c).runs _ _ _ (hv c x))).symm }

/-- Configurations with masks from any mask calls. -/
abbrev ExM := ({d : D // ExRange d} × Bool) × {m : Mask.State // Mask.Called m}

/-- The structures of any one class, with sites of equal multiplicity and any masks set by the calls, evaluated before and after `invertMask()`. -/
example (cls : Kind Lat Sym → Prop) (hcls : ∀ a b, cls a → cls b → SameClass a b) (s : Sorter) :
    let St := {x : RStru // cls x.kind ∧ (geom x).Ok ∧ UniformOccupancy (sitesOf x) ∧ Displaced x ∧
      (∀ i j, i < (geom x).cnt → j < (geom x).cnt → (geom x).mult i = (geom x).mult j) ∧ Mask.allStr ∉ typesOf x}
    let lib : ExM → DLCfg := fun c => exDebye c.1
    let ms : ExM → Mask.State := fun c => c.2.1
    ∃ (k : Cls ExM St) (real : ExM → St → Mask.State), IsMaskedDebye s lib ms real (fun x => x.1) k ∧
      UsualDebye (fun c => (lib c).unmasked) (fun x : St => x.1) k ∧ (∀ x : St, Mask.allStr ∉ typesOf x.1) ∧
      ∀ x y c, let ops : List (POp ExM St) :=
          [.eval x, .configure (fun c => (c.1, ⟨_, Mask.Called.step c.2.2 .invert trivial trivial⟩)) true false, .eval y]
        MCalled lib ms k (dcInit k c x 0 1) ops ∧ strayed lib k (dcInit k c x 0 1) (ops ++ [.eval x]) = false := by
  intro St lib ms
  have ht : ∀ c (x : St) a b, 0 ≤ (exDebye c).tails x.1 a b := fun c x a b => tails_nonneg _ _ _ _
  obtain ⟨k, hk, -⟩ := masked_debye_exists s lib ms (fun c => c.2.2) (fun x : St => x.1) (fun _ => rfl)
    (fun x c => (((⟨(exRange_reset ((exDebye c.1).tails x.1) (ht c.1 x) c.1.1.1 c.1.1.2).choose,
      (exRange_reset ((exDebye c.1).tails x.1) (ht c.1 x) c.1.1.1 c.1.1.2).choose_spec.2⟩, c.1.2), c.2),
      decide ((exRange_reset ((exDebye c.1).tails x.1) (ht c.1 x) c.1.1.1 c.1.1.2).choose.clicks ≠ c.1.1.1.clicks)))
    (fun x c h => Prod.ext (Prod.ext (Subtype.ext (congrArg DLCfg.d h)) rfl) rfl)
    (fun _ _ => rfl)
    (fun x c => ⟨_, (exRange_reset ((exDebye c.1).tails x.1) (ht c.1 x) c.1.1.1 c.1.1.2).choose_spec.1, rfl, rfl⟩)
  refine ⟨k, _, hk, ⟨fun x y _ => hcls _ _ x.2.1 y.2.1, fun x => x.2.2.1, fun x => x.2.2.2.1, fun c => c.1.1.2.good, fun _ => trivial,
    fun x => x.2.2.2.2.1, fun c x => Or.inr x.2.2.2.2.2.1, fun _ _ _ _ _ => rfl, fun _ _ _ _ _ _ _ _ => rfl, fun c => c.1.1.2.optimum, fun c => ?_,
    fun c => c.1.1.2.wide⟩, fun x => x.2.2.2.2.2.2, fun x y c => ⟨?_, ?_⟩⟩
  · show c.1.1.1.rmin ≤ _ ∧ c.1.1.1.rmin ≤ _
    rw [c.1.1.2.rmin]
    exact ⟨c.1.1.2.good.maxext, ripples_nonneg _⟩
  · intro pre f cl r post e
    rcases pre with _ | ⟨o, _ | ⟨o', _ | ⟨o'', pre⟩⟩⟩
    · simp at e
    · simp only [List.cons_append, List.nil_append, List.cons.injEq, POp.configure.injEq] at e
      obtain ⟨-, ⟨rfl, rfl, rfl⟩, -⟩ := e
      generalize (dcRun k (dcInit k c x 0 1) [o]).h.cfg = c
      exact Or.inr ⟨rfl, .invert, ms c, c.2.2.runs, trivial, trivial, rfl, by simp [Mask.step, Mask.invertMask, Mask.State.click]⟩
    · simp at e
    · simp at e
  · have ha : ∀ c : ExM, (lib (c.1, ⟨_, Mask.Called.step c.2.2 .invert trivial trivial⟩)).d.rstep = (lib c).d.rstep := fun c => rfl
    simp [strayed, taintRun, taintOn, POp.op, ha]

end Verif.DebyeHist
