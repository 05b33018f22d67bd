import Verif.Model.BondSum
import Verif.Props.BondCalc
import Verif.Props.Cones
import Verif.Props.GeometryList
import Mathlib.Tactic.Tauto
/-! C84: the bonds of finite structures, periodic structures and crystals. -/
set_option linter.unusedSectionVars false
namespace Verif.BondCalc
open Verif.BondGen Verif.Eval Verif.R3 Verif.Geo

/-! ### Specification -/

/-- The bonds a user expects: `e` leads from an atom of the structure to an atom of the infinite structure, the mask allows the
pair, the length is in range, and it lies in one of the cones, if there are any. -/
def IsBond (g : Geometry) (mask : ℕ → ℕ → Bool) (cones : List (V3 × ℝ)) (rmin rmax : ℝ) (e : Entry ℝ) : Prop :=
  e.site0 < g.cnt ∧ e.site1 < g.cnt ∧ mask e.site0 e.site1 = true ∧ g.IsVec e.site0 e.site1 e.direction ∧
  InRange rmin rmax (V3.norm e.direction) ∧ e.distance = V3.norm e.direction ∧
  (cones = [] ∨ ∃ c ∈ cones, angleDeg e.direction c.1 ≤ c.2)

/-! ### Proof -/

/-- The data of a bond with the vector `v`. -/
noncomputable def vecData (v : V3) : BData ℝ := ⟨V3.norm v, v.x, v.y, v.z⟩

theorem bcBond_eq (b : Bond) (h : b.distance = V3.norm b.r01) : bcBond b = vecData b.r01 := by
  unfold bcBond vecData
  rw [h]

theorem conePass_iff (ops : List ConeOp) (v : V3) :
    conePass (coneRun ⟨[], 0⟩ ops) (vecData v) = true ↔ activeCones [] ops = [] ∨ ∃ c ∈ activeCones [] ops, angleDeg v c.1 ≤ c.2 := by
  classical
  rw [← cone_filter_correct ops v]
  exact decide_eq_true_iff

theorem specBonds_mem (g : Geometry) (hok : g.Ok) (mask : ℕ → ℕ → Bool) (ops : List ConeOp) (lo hi : ℝ) (e : Entry ℝ) :
    e ∈ specBonds (fun i j => (vecs g lo hi i j).map vecData) mask (conePass (coneRun ⟨[], 0⟩ ops)) g.cnt ↔
      IsBond g mask (activeCones [] ops) lo hi e := by
  unfold specBonds IsBond
  rw [List.mem_flatMap]
  constructor
  · rintro ⟨i, hi', h⟩
    obtain ⟨j, hj, h⟩ := List.mem_flatMap.1 h
    rw [List.mem_range] at hi' hj
    split at h
    · rename_i hm
      obtain ⟨b, hb, rfl⟩ := List.mem_map.1 h
      obtain ⟨hb, hp⟩ := List.mem_filter.1 hb
      obtain ⟨v, hv, rfl⟩ := List.mem_map.1 hb
      obtain ⟨h1, h2⟩ := ((vecs_spec g hok lo hi i j hi' hj).2 v).1 hv
      exact ⟨hi', hj, hm, h1, h2, rfl, (conePass_iff ops v).1 hp⟩
    · simp at h
  · rintro ⟨h1, h2, hm, hv, hr, hd, hc⟩
    refine ⟨e.site0, List.mem_range.2 h1, List.mem_flatMap.2 ⟨e.site1, List.mem_range.2 h2, ?_⟩⟩
    rw [if_pos hm, List.mem_map]
    refine ⟨vecData e.direction, List.mem_filter.2 ⟨List.mem_map.2 ⟨_, ((vecs_spec g hok lo hi _ _ h1 h2).2 _).2 ⟨hv, hr⟩, rfl⟩,
      (conePass_iff ops _).2 hc⟩, ?_⟩
    cases e
    simp only [Entry.direction] at hd ⊢
    simp only [vecData, hd]

theorem specBonds_nodup (g : Geometry) (hok : g.Ok) (mask : ℕ → ℕ → Bool) (pass : BData ℝ → Bool) (lo hi : ℝ) :
    (specBonds (fun i j => (vecs g lo hi i j).map vecData) mask pass g.cnt).Nodup := by
  unfold specBonds
  have hin : ∀ i j, i < g.cnt → j < g.cnt → (if mask i j = true then (((vecs g lo hi i j).map vecData).filter pass).map fun b =>
      (⟨b.distance, i, j, b.r0, b.r1, b.r2⟩ : Entry ℝ) else []).Nodup := by
    intro i j h1 h2
    split
    · refine List.Nodup.map ?_ (List.Nodup.filter _ (List.Nodup.map ?_ (vecs_spec g hok lo hi i j h1 h2).1))
      · intro a b h
        cases a; cases b
        simp only [Entry.mk.injEq] at h
        simp only [BData.mk.injEq]
        exact ⟨h.1, h.2.2.2.1, h.2.2.2.2.1, h.2.2.2.2.2⟩
      · intro a b h
        simp only [vecData, BData.mk.injEq] at h
        exact V3.ext h.2.1 h.2.2.1 h.2.2.2
    · exact List.nodup_nil
  have hsite : ∀ i j, ∀ e ∈ (if mask i j = true then (((vecs g lo hi i j).map vecData).filter pass).map fun b =>
      (⟨b.distance, i, j, b.r0, b.r1, b.r2⟩ : Entry ℝ) else []), e.site0 = i ∧ e.site1 = j := by
    intro i j e he
    split at he
    · obtain ⟨b, -, rfl⟩ := List.mem_map.1 he; exact ⟨rfl, rfl⟩
    · simp at he
  rw [List.nodup_flatMap]
  constructor
  · intro i hi'
    rw [List.nodup_flatMap]
    refine ⟨fun j hj => hin i j (List.mem_range.1 hi') (List.mem_range.1 hj), ?_⟩
    refine List.Pairwise.imp ?_ (List.nodup_range (n := g.cnt))
    intro a b hab
    rw [Function.onFun, List.disjoint_left]
    intro e h1 h2
    exact hab ((hsite i a e h1).2.symm.trans (hsite i b e h2).2)
  · refine List.Pairwise.imp ?_ (List.nodup_range (n := g.cnt))
    intro a b hab
    rw [Function.onFun, List.disjoint_left]
    intro e h1 h2
    obtain ⟨_, _, h1⟩ := List.mem_flatMap.1 h1
    obtain ⟨_, _, h2⟩ := List.mem_flatMap.1 h2
    exact hab ((hsite a _ e h1).1.symm.trans (hsite b _ e h2).1)

theorem entries_perm (pass : BData ℝ → Bool) (c : ℕ → ℕ → List (BData ℝ)) (use : ℕ → ℕ → Bool) (n : ℕ) (tr : List (Contrib (BData ℝ)))
    (h : tr.Perm (specContribs c true use n)) : (entries pass tr).Perm (specBonds c use pass n) := by
  refine ((h.filter _).map _).trans (List.Perm.of_eq ?_)
  unfold specContribs specBonds
  simp only [true_or, true_and, if_true]
  rw [List.filter_flatMap, List.map_flatMap]
  apply List.flatMap_congr
  intro i _
  rw [List.filter_flatMap, List.map_flatMap]
  apply List.flatMap_congr
  intro j _
  by_cases hu : use i j = true
  · simp only [hu, if_true, List.filter_map, List.map_map]
    rfl
  · simp [hu]

/-! ### The list of bonds -/

/-- C84. After a complete evaluation, whatever the calculator held before and whatever filters were set: the list is sorted, has no
bond twice, contains exactly the bonds of the structure, and `value()` and `distances()` are their lengths. -/
theorem bond_list (fill : Entry ℝ) (g : Geometry) (hok : g.Ok) (mask : ℕ → ℕ → Bool) (ops : List ConeOp) (rmin rmax : ℝ)
    (gen : ℝ → ℝ → Gen Bond) (hgen : g.IsGen rmin rmax (gen rmin rmax)) (d : Data ℝ) :
    let r := evalStru fill rmin rmax mask (coneRun ⟨[], 0⟩ ops) g.cnt gen d
    Sorted r.bonds ∧ r.bonds.Nodup ∧ (∀ e, e ∈ r.bonds ↔ IsBond g mask (activeCones [] ops) rmin rmax e) ∧
      r.value = distances r ∧ (distances r).Pairwise (· ≤ ·) := by
  intro r
  have hscale := basic_scale true (mapGen bcBond (gen rmin rmax)) mask g.cnt 0 1
  have hf := fold_add (conePass (coneRun ⟨[], 0⟩ ops)) _ hscale (resetValue d)
  obtain ⟨f1, -, -, f4, f5⟩ := finish_serial fill ((basicTrace true (mapGen bcBond (gen rmin rmax)) true mask g.cnt 0 1).foldl
    (addPairContribution (conePass (coneRun ⟨[], 0⟩ ops))) (resetValue d)) (by rw [hf]; exact List.Pairwise.nil)
  have ht := trace_vecs g hok rmin rmax (gen rmin rmax) hgen bcBond vecData bcBond_eq true true mask 0
  have hp : r.bonds.Perm (specBonds (fun i j => (vecs g rmin rmax i j).map vecData) mask (conePass (coneRun ⟨[], 0⟩ ops)) g.cnt) := by
    refine List.Perm.trans ?_ (entries_perm (conePass (coneRun ⟨[], 0⟩ ops)) _ mask g.cnt _ ht)
    rw [List.perm_iff_count]
    intro e
    refine (f5 e).trans ?_
    rw [hf]
    simp [resetValue]
  refine ⟨f1, hp.nodup_iff.2 (specBonds_nodup g hok mask _ rmin rmax), fun e => ?_, f4, ?_⟩
  · rw [hp.mem_iff, specBonds_mem g hok]
  · unfold distances
    rw [List.pairwise_map]
    refine List.Pairwise.imp ?_ f1
    intro a b hab
    by_contra hn
    rw [not_le] at hn
    have := (compare_lex b a).2 (Or.inl hn)
    rw [hab] at this
    cases this

/-- C84. The four lists run in parallel: their k-th elements belong to one bond. -/
theorem lists_agree (d : Data ℝ) : (distances d).length = d.bonds.length ∧ (directions d).length = d.bonds.length ∧
    (sites0 d).length = d.bonds.length ∧ (sites1 d).length = d.bonds.length ∧
    ∀ (k : ℕ) (x : ℝ) (v : V3) (i j : ℕ), ((distances d)[k]? = some x ∧ (directions d)[k]? = some v ∧ (sites0 d)[k]? = some i ∧ (sites1 d)[k]? = some j) ↔
      d.bonds[k]? = some ⟨x, i, j, v.x, v.y, v.z⟩ := by
  unfold distances directions sites0 sites1
  refine ⟨by simp, by simp, by simp, by simp, fun k x v i j => ?_⟩
  simp only [List.getElem?_map]
  cases d.bonds[k]? with
  | none => simp
  | some e =>
    cases e
    cases v
    simp only [Option.map_some, Option.some.injEq, Entry.direction, V3.mk.injEq, Entry.mk.injEq]
    tauto

/-- The bond seen from its other end. -/
def Entry.reverse (e : Entry ℝ) : Entry ℝ := ⟨e.distance, e.site1, e.site0, -e.direction0, -e.direction1, -e.direction2⟩

/-- C84. Without filters and with a symmetric mask, the bonds of a finite or periodic structure are listed from both ends. -/
theorem reverse_listed (g : Geometry) (hg : ∀ c, g ≠ .crystal c) (mask : ℕ → ℕ → Bool) (hmask : ∀ i j, mask i j = mask j i) (rmin rmax : ℝ)
    (e : Entry ℝ) (h : IsBond g mask [] rmin rmax e) : IsBond g mask [] rmin rmax e.reverse := by
  obtain ⟨h1, h2, h3, h4, h5, h6, -⟩ := h
  have hd : e.reverse.direction = V3.sub V3.zero e.direction := by
    ext <;> simp [Entry.reverse, Entry.direction, V3.sub, V3.zero]
  have hn : V3.norm e.reverse.direction = V3.norm e.direction := by rw [hd]; exact PDFCache.norm_neg _
  refine ⟨h2, h1, ?_, ?_, by rw [hn]; exact h5, by rw [hn]; exact h6, Or.inl rfl⟩
  · show mask e.site1 e.site0 = true
    rw [hmask]; exact h3
  · show g.IsVec e.site1 e.site0 _
    rw [hd]
    cases g with
    | cluster n pos =>
      show _ = V3.sub (pos e.site0) (pos e.site1)
      rw [show e.direction = V3.sub (pos e.site1) (pos e.site0) from h4]
      ext <;> simp [V3.sub, V3.zero]
    | periodic n L xyz =>
      obtain ⟨s, hs⟩ := h4
      refine ⟨-s, ?_⟩
      rw [hs]
      unfold PDFCache.imageVec PDFCache.shift
      ext <;> simp [V3.sub, V3.add, V3.zero, Lattice.Lat.cartesian, Periodic.tripVec, M3.vecMul, V3.dot, M3.c0, M3.c1, M3.c2] <;> ring
    | crystal c => exact absurd rfl (hg c)

end Verif.BondCalc
