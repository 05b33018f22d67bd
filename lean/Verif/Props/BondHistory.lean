import Verif.Model.StruGeom
import Verif.Props.BondSum
import Verif.Props.KindDiff
/-! C84: bonds after a history of evaluations and calls, and from parallel jobs. -/
set_option linter.unusedSectionVars false
namespace Verif.Geo
open Verif.BondGen Verif.Eval Verif.R3 Verif.Lattice Verif.Diff Verif.KindDiff
open Verif.Crystal (Crys equivPos)

/-- The geometry of a structure object. -/
noncomputable def geom (x : RStru) : Geometry :=
  match x.kind with
  | .atomic => .cluster x.atoms.length (posOf x.atoms)
  | .periodic L => .periodic x.atoms.length L (posOf x.atoms)
  | .crystal L o => .crystal (crysOf x.atoms L o)

theorem geom_cnt (x : RStru) : (geom x).cnt = x.atoms.length := by
  obtain ⟨k, a⟩ := x
  cases k with
  | atomic => rfl
  | periodic L => rfl
  | crystal L o => exact List.length_map _

/-- The vectors between two sites depend on the kind of the structure and the two atoms. -/
theorem isVec_congr (x y : RStru) (hk : x.kind = y.kind) (i j : ℕ) (hi : x.atoms[i]? = y.atoms[i]?) (hj : x.atoms[j]? = y.atoms[j]?) (v : V3) :
    (geom x).IsVec i j v ↔ (geom y).IsVec i j v := by
  obtain ⟨k, a⟩ := x
  obtain ⟨k', b⟩ := y
  simp only at hk hi hj
  subst hk
  have hp : ∀ m, a[m]? = b[m]? → posOf a m = posOf b m := by
    intro m h
    unfold posOf
    rw [h]
  cases k with
  | atomic =>
    show v = V3.sub (posOf a j) (posOf a i) ↔ v = V3.sub (posOf b j) (posOf b i)
    rw [hp i hi, hp j hj]
  | periodic L =>
    show (∃ s, v = PDFCache.imageVec L (posOf a) i j s) ↔ ∃ s, v = PDFCache.imageVec L (posOf b) i j s
    unfold PDFCache.imageVec
    rw [hp i hi, hp j hj]
  | crystal L o =>
    have he : ∀ m, a[m]? = b[m]? → equivPos (crysOf a L o) m = equivPos (crysOf b L o) m := by
      intro m h
      unfold equivPos crysOf
      simp only [List.map_map, List.getD_eq_getElem?_getD, List.getElem?_map]
      rw [h]
    show (∃ q ∈ equivPos (crysOf a L o) j, ∃ s, v = V3.sub (PDFCache.moved L q s) ((equivPos (crysOf a L o) i).headD V3.zero)) ↔
      ∃ q ∈ equivPos (crysOf b L o) j, ∃ s, v = V3.sub (PDFCache.moved L q s) ((equivPos (crysOf b L o) i).headD V3.zero)
    rw [he i hi, he j hj]

theorem vecs_congr (g g' : Geometry) (lo hi : ℝ) (i j : ℕ) (h1 : i < g.cnt) (h2 : j < g.cnt) (h1' : i < g'.cnt) (h2' : j < g'.cnt)
    (h : ∀ v, g.IsVec i j v ↔ g'.IsVec i j v) : vecs g lo hi i j = vecs g' lo hi i j := by
  unfold vecs
  have e : {v | g.IsVec i j v ∧ InRange lo hi (V3.norm v)} = {v | g'.IsVec i j v ∧ InRange lo hi (V3.norm v)} := by
    ext v
    show _ ∧ _ ↔ _ ∧ _
    rw [h v]
  by_cases hf : {v | g.IsVec i j v ∧ InRange lo hi (V3.norm v)}.Finite
  · have hf' : {v | g'.IsVec i j v ∧ InRange lo hi (V3.norm v)}.Finite := e ▸ hf
    rw [dif_pos ⟨hf, h1, h2⟩, dif_pos ⟨hf', h1', h2'⟩]
    congr 1
    ext v
    rw [Set.Finite.mem_toFinset, Set.Finite.mem_toFinset]
    show _ ∧ _ ↔ _ ∧ _
    rw [h v]
  · have hf' : ¬ {v | g'.IsVec i j v ∧ InRange lo hi (V3.norm v)}.Finite := e ▸ hf
    rw [dif_neg fun x => hf x.1, dif_neg fun x => hf' x.1]

end Verif.Geo

namespace Verif.BondCalc
open Verif.BondGen Verif.Eval Verif.R3 Verif.Lattice Verif.Diff Verif.KindDiff Verif.Geo Verif.History

/-- What the bonds depend on besides the structure: limits, masks (by sites and by atoms) and the filter calls made so far. -/
structure BCfg where
  rmin : ℝ
  rmax : ℝ
  mask : ℕ → ℕ → Option Atom → Option Atom → Bool
  cones : List ConeOp

/-- Structures of one class, `cls`, with a regular geometry. -/
abbrev SStru (cls : Kind Lat Sym → Prop) := {x : RStru // cls x.kind ∧ (geom x).Ok}

/-- `k` is the BondCalculator on such structures: it counts the sites, uses the differences of C55, the masks and filters of the
configuration, and the bond generators of the structures with the limits of the configuration.  Of sites that do not exist a
generator may deliver anything that depends on the pair of sites only (no evaluation selects them). -/
structure IsBondCalculator (cls : Kind Lat Sym → Prop) (s : Sorter) (k : Cls BCfg (SStru cls) ℝ) : Prop where
  count : ∀ x, k.count x = x.1.atoms.length
  diff : ∀ x y, k.diff x y = KindDiff.diff s false x.1 y.1
  use : ∀ c x i j, k.use c x i j = c.mask i j x.1.atoms[i]? x.1.atoms[j]?
  pass : ∀ c, k.pass c = conePass (coneRun ⟨[], 0⟩ c.cones)
  gen : ∀ c x, ∃ gen, (geom x.1).IsGen c.rmin c.rmax gen ∧
    ∀ i sel, i < (geom x.1).cnt → (∀ j ∈ sel, j < (geom x.1).cnt) → k.gen c x i sel = mapGen bcBond gen i sel
  outside : ∀ c x i sel, ¬ (i < (geom x.1).cnt ∧ ∀ j ∈ sel, j < (geom x.1).cnt) →
    (k.gen c x i sel).Perm (sel.flatMap fun j => ((vecs (geom x.1) c.rmin c.rmax i j).map vecData).map fun b => (j, b))
  custom : ∀ x c, k.custom x c = (c, false)

theorem geo_blawful (cls : Kind Lat Sym → Prop) (hcls : ∀ a b, cls a → cls b → SameClass a b) (s : Sorter) (k : Cls BCfg (SStru cls) ℝ)
    (hk : IsBondCalculator cls s k) : BLawful k fun c x i j => (vecs (geom x.1) c.rmin c.rmax i j).map vecData where
  gen := by
    intro c x i sel
    by_cases h : i < (geom x.1).cnt ∧ ∀ j ∈ sel, j < (geom x.1).cnt
    · obtain ⟨gen, h1, h2⟩ := hk.gen c x
      rw [h2 i sel h.1 h.2]
      exact gen_vecs _ x.2.2 _ _ gen h1 bcBond vecData bcBond_eq i h.1 sel h.2
    · exact hk.outside c x i sel h
  custom := by
    intro x c _
    rw [hk.custom]
  diff := by
    intro x y hf hm
    rw [hk.diff] at hf hm ⊢
    obtain ⟨hkind, hd⟩ := diff_kind_partial s x.1 y.1 (hcls _ _ x.2.1 y.2.1) hf
    rw [hd] at hm ⊢
    obtain ⟨v0, v1, _, _⟩ := diff_sideBySide s false true x.1.atoms y.1.atoms (by intro h; cases h) hm
    have hr := fun i => diff_sideBySide_rest s false true x.1.atoms y.1.atoms (by intro h; cases h) hm i
    rw [hk.count, hk.count]
    refine ⟨v0, v1, fun i => (hr i).1, ?_⟩
    intro c i j hi hj hip hjp
    obtain ⟨a, e0, e1⟩ := (hr i).2 ⟨hi, hip⟩
    obtain ⟨b, e2, e3⟩ := (hr j).2 ⟨hj, hjp⟩
    rw [hk.use, hk.use, e0, e1, e2, e3]
    refine ⟨rfl, ?_⟩
    have l1 := (hr i).1.1 ⟨hi, hip⟩
    have l2 := (hr j).1.1 ⟨hj, hjp⟩
    rw [vecs_congr (geom x.1) (geom y.1) c.rmin c.rmax i j (by rw [geom_cnt]; exact hi) (by rw [geom_cnt]; exact hj)
      (by rw [geom_cnt]; exact l1.1) (by rw [geom_cnt]; exact l2.1)
      (isVec_congr x.1 y.1 hkind i j (e0.trans e1.symm) (e2.trans e3.symm))]

theorem geo_spec_mem (cls : Kind Lat Sym → Prop) (s : Sorter) (k : Cls BCfg (SStru cls) ℝ) (hk : IsBondCalculator cls s k) (c : BCfg)
    (x : SStru cls) : (k.spec (fun c x i j => (vecs (geom x.1) c.rmin c.rmax i j).map vecData) c x).Nodup ∧
      ∀ e, e ∈ k.spec (fun c x i j => (vecs (geom x.1) c.rmin c.rmax i j).map vecData) c x ↔
      IsBond (geom x.1) (fun i j => c.mask i j x.1.atoms[i]? x.1.atoms[j]?) (activeCones [] c.cones) c.rmin c.rmax e := by
  unfold Cls.spec
  rw [hk.count, ← geom_cnt, hk.pass]
  have : k.use c x = fun i j => c.mask i j x.1.atoms[i]? x.1.atoms[j]? := by funext i j; exact hk.use c x i j
  rw [this]
  exact ⟨specBonds_nodup _ x.2.2 _ _ _ _, fun e => specBonds_mem _ x.2.2 _ _ _ _ e⟩

/-- **C84** (partial: structures of one class; histories as in C12 without the CHECK evaluator). After any history of evaluations, full or fast, and
configuration calls, `eval` leaves the sorted list of exactly the bonds of the last structure under the configuration of that time. -/
theorem bond_history_partial (cls : Kind Lat Sym → Prop) (hcls : ∀ a b, cls a → cls b → SameClass a b) (s : Sorter)
    (k : Cls BCfg (SStru cls) ℝ) (hk : IsBondCalculator cls s k) (fill : Entry ℝ) (c : BCfg) (e : SStru cls) (ops : List (BOp BCfg (SStru cls)))
    (ha : ∀ op ∈ ops, BAllowed op) (ht : taintAfter k.calc (bcInit (R := ℝ) c e).h false (ops.map BOp.op) = false) (stru : SStru cls) :
    let r := bcEval k fill (bcRun k fill (bcInit c e) ops) stru
    Sorted r.d.bonds ∧ r.d.bonds.Nodup ∧ r.d.value = distances r.d ∧
    ∀ b, b ∈ r.d.bonds ↔ IsBond (geom stru.1) (fun i j => r.h.cfg.mask i j stru.1.atoms[i]? stru.1.atoms[j]?)
      (activeCones [] r.h.cfg.cones) r.h.cfg.rmin r.h.cfg.rmax b := by
  intro r
  obtain ⟨h1, h2, h3⟩ := bonds_history_partial k _ (geo_blawful cls hcls s k hk) fill c e ops ha ht stru
  obtain ⟨n1, n2⟩ := geo_spec_mem cls s k hk r.h.cfg stru
  exact ⟨h1, h2.nodup_iff.2 n1, h3, fun b => by rw [← n2 b]; exact h2.mem_iff⟩

/-- **C84**, parallel: two or more jobs that each evaluate the structure in full; their parts, merged in any order, give the same list. -/
theorem bond_parallel (cls : Kind Lat Sym → Prop) (hcls : ∀ a b, cls a → cls b → SameClass a b) (s : Sorter)
    (k : Cls BCfg (SStru cls) ℝ) (hk : IsBondCalculator cls s k) (fill : Entry ℝ) (c : BCfg) (stru : SStru cls) (n : ℕ) (hn : 2 ≤ n)
    (d : ℕ → Data ℝ) (d0 : Data ℝ) (parts : List (List (Entry ℝ) × List (Entry ℝ)))
    (hp : parts.Perm ((List.range n).map fun i : ℕ => jobPart k fill c stru (d i) (i : ℤ) (n : ℤ))) :
    let r := mergeAll fill d0 parts
    Sorted r.bonds ∧ r.bonds.Nodup ∧ r.value = distances r ∧
    ∀ b, b ∈ r.bonds ↔ IsBond (geom stru.1) (fun i j => c.mask i j stru.1.atoms[i]? stru.1.atoms[j]?) (activeCones [] c.cones) c.rmin c.rmax b := by
  intro r
  obtain ⟨h1, h2, h3⟩ := parallel_bonds k _ (geo_blawful cls hcls s k hk) fill c stru n hn d d0 parts hp
  have hc : (k.custom stru c).1 = c := by rw [hk.custom]
  rw [hc] at h2
  obtain ⟨n1, n2⟩ := geo_spec_mem cls s k hk c stru
  exact ⟨h1, h2.nodup_iff.2 n1, h3, fun b => by rw [← n2 b]; exact h2.mem_iff⟩

end Verif.BondCalc

namespace Verif.BondCalc
open Verif.BondGen Verif.Eval Verif.R3 Verif.Lattice Verif.Diff Verif.KindDiff Verif.Geo Verif.History

/-- There is such a calculator: the hypotheses of the theorems above can be met for every class of structures. -/
theorem calculator_exists (cls : Kind Lat Sym → Prop) (s : Sorter) : ∃ k : Cls BCfg (SStru cls) ℝ, IsBondCalculator cls s k := by
  classical
  let G : BCfg → SStru cls → Gen Bond := fun c x => (gen_exists (geom x.1) c.rmin c.rmax).choose
  refine ⟨{ hasPairMask := fun _ => false
            rule := chopOuterRule
            count := fun x => x.1.atoms.length
            gen := fun c x i sel => if i < (geom x.1).cnt ∧ ∀ j ∈ sel, j < (geom x.1).cnt then mapGen bcBond (G c x) i sel else
              sel.flatMap fun j => ((vecs (geom x.1) c.rmin c.rmax i j).map vecData).map fun b => (j, b)
            use := fun c x i j => c.mask i j x.1.atoms[i]? x.1.atoms[j]?
            pass := fun c => conePass (coneRun ⟨[], 0⟩ c.cones)
            custom := fun _ c => (c, false)
            diff := fun x y => KindDiff.diff s false x.1 y.1 }, ?_⟩
  refine ⟨fun _ => rfl, fun _ _ => rfl, fun _ _ _ _ => rfl, fun _ => rfl, fun c x => ?_, fun c x i sel h => ?_, fun _ _ => rfl⟩
  · exact ⟨G c x, (gen_exists (geom x.1) c.rmin c.rmax).choose_spec, fun i sel h1 h2 => if_pos ⟨h1, h2⟩⟩
  · dsimp only
    rw [if_neg h]

/-- `filterCone(ax, 10)` as a change of the configuration. -/
def addCone (ax : V3) (c : BCfg) : BCfg := { c with cones := c.cones ++ [.cone ax 10] }

/-- Crystals: any two evaluations with a change of a filter in between are a history as in the theorem. -/
example (k : Cls BCfg (SStru fun k => ∃ L o, k = .crystal L o) ℝ) (c : BCfg) (x y : SStru fun k => ∃ L o, k = .crystal L o) (ax : V3) :
    (∀ a b : Kind Lat Sym, (∃ L o, a = .crystal L o) → (∃ L o, b = .crystal L o) → SameClass a b) ∧
    (∀ op ∈ ([BOp.eval x, .configure (addCone ax) true, .eval y] : List (BOp BCfg (SStru fun k => ∃ L o, k = .crystal L o))), BAllowed op) ∧
    taintAfter k.calc (bcInit (R := ℝ) c x).h false
      (([BOp.eval x, .configure (addCone ax) true, .eval y] : List (BOp _ _)).map BOp.op) = false := by
  refine ⟨?_, ?_, ?_⟩
  · rintro _ _ ⟨L, o, rfl⟩ ⟨L', o', rfl⟩; trivial
  · intro op hop
    simp only [List.mem_cons, List.not_mem_nil, or_false] at hop
    rcases hop with rfl | rfl | rfl
    · trivial
    · intro h; cases h
    · trivial
  · simp [taintAfter, taint, BOp.op]

end Verif.BondCalc
