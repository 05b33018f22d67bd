import Verif.Props.SameExample
import Verif.Props.BondHistory
/-! C97: the bonds that a BondCalculator lists do not depend on how a structure is described. -/
set_option linter.unusedSectionVars false
namespace Verif.BondCalc
open Verif.BondGen Verif.Eval Verif.R3 Verif.Lattice Verif.Diff Verif.KindDiff Verif.Geo Verif.History
open Verif.PDFHist (SameMask)
open scoped BigOperators

variable {x x' : RStru} {σ : ℕ → ℕ} {ρ : V3 → V3}

/-! ### Specification -/

/-- The bonds of one site, as pairs of the other site and the length; `site` tells which site of the first description a site belongs to. -/
noncomputable def bondsOf (bonds : List (Entry ℝ)) (k : ℕ) (site : ℕ → ℕ) : Multiset (ℕ × ℝ) :=
  ((bonds.filter fun e => e.site0 = k).map fun e => (site e.site1, e.distance) : List (ℕ × ℝ))

/-! ### Proof -/

/-- The list of bonds is what C84 says. -/
def Lists (bonds : List (Entry ℝ)) (y : RStru) (m : ℕ → ℕ → Bool) (lo hi : ℝ) : Prop :=
  bonds.Nodup ∧ ∀ e, e ∈ bonds ↔ IsBond (geom y) m [] lo hi e

noncomputable def entryOf (i j : ℕ) (v : V3) : Entry ℝ := ⟨V3.norm v, i, j, v.x, v.y, v.z⟩

theorem count_norm (g : Geometry) (hok : g.Ok) (lo hi : ℝ) (i j : ℕ) (hi' : i < g.cnt) (hj : j < g.cnt) (d : ℝ) :
    ((((vecs g lo hi i j).map V3.norm).count d : ℕ) : ℝ) = g.sum i j (Geo.cut lo hi fun v => if V3.norm v = d then 1 else 0) := by
  obtain ⟨gen, hgen⟩ := gen_exists g lo hi
  obtain ⟨bonds, hd⟩ := delivers g hok lo hi gen hgen
  have h := hd.sum i hi' j hj (fun v => if V3.norm v = d then 1 else 0)
  rw [← h, ← ((delivers_vecs hok hd i j hi' hj).map V3.norm).count_eq, List.map_map]
  generalize bonds i j = l
  induction l with
  | nil => simp
  | cons b l ih =>
    simp only [List.map_cons, List.count_cons, List.sum_cons, Function.comp, Nat.cast_add]
    rw [← ih]
    simp only [beq_iff_eq, Function.comp_def]
    split <;> simp [add_comm]

theorem count_sum {α : Type} [DecidableEq α] (a : α) (l : List α) : ((Multiset.count a (l : Multiset α) : ℕ) : ℝ) = (l.map fun b => if b = a then (1 : ℝ) else 0).sum := by
  induction l with
  | nil => simp
  | cons b l ih =>
    rw [← Multiset.cons_coe, Multiset.count_cons, List.map_cons, List.sum_cons, ← ih]
    by_cases h : b = a
    · simp [h, add_comm]
    · simp [h, Ne.symm h]

theorem lists_perm {bonds : List (Entry ℝ)} {y : RStru} (hok : (geom y).Ok) {m : ℕ → ℕ → Bool} {lo hi : ℝ} (h : Lists bonds y m lo hi) (k : ℕ)
    (hk : k < y.atoms.length) :
    (bonds.filter fun e => e.site0 = k).Perm ((List.range y.atoms.length).flatMap fun j => if m k j = true then (vecs (geom y) lo hi k j).map (entryOf k j) else []) := by
  have hc := geom_cnt y
  rw [List.perm_ext_iff_of_nodup]
  · intro e
    rw [List.mem_filter, h.2, List.mem_flatMap]
    constructor
    · rintro ⟨⟨h0, h1, h2, h3, h4, h5, -⟩, hs⟩
      have hs : e.site0 = k := by simpa using hs
      refine ⟨e.site1, List.mem_range.2 (hc ▸ h1), ?_⟩
      rw [hs] at h2 h3
      rw [if_pos h2]
      refine List.mem_map.2 ⟨e.direction, ((vecs_spec _ hok lo hi k e.site1 (hc.symm ▸ hk) h1).2 _).2 ⟨h3, h4⟩, ?_⟩
      apply Entry.ext
      · exact h5.symm
      · exact hs.symm
      · rfl
      · rfl
      · rfl
      · rfl
    · rintro ⟨j, hj, he⟩
      have hj := List.mem_range.1 hj
      split at he
      · next hm =>
        obtain ⟨v, hv, rfl⟩ := List.mem_map.1 he
        obtain ⟨h3, h4⟩ := ((vecs_spec _ hok lo hi k j (hc.symm ▸ hk) (hc.symm ▸ hj)).2 v).1 hv
        exact ⟨⟨hc.symm ▸ hk, hc.symm ▸ hj, hm, h3, h4, rfl, Or.inl rfl⟩, by simp [entryOf]⟩
      · cases he
  · exact h.1.filter _
  · rw [List.nodup_flatMap]
    constructor
    · intro j hj
      have hj := List.mem_range.1 hj
      split
      · refine ((vecs_spec _ hok lo hi k j (hc.symm ▸ hk) (hc.symm ▸ hj)).1).map fun a b hab => ?_
        have h1 := congrArg Entry.direction hab
        exact h1
      · exact List.nodup_nil
    · refine List.nodup_range.imp fun {a b} hab => ?_
      rw [Function.onFun, List.disjoint_left]
      intro e h1 h2
      split at h1
      · split at h2
        · obtain ⟨v, -, rfl⟩ := List.mem_map.1 h1
          obtain ⟨w, -, hw⟩ := List.mem_map.1 h2
          exact hab (congrArg Entry.site1 hw).symm
        · cases h2
      · cases h1

theorem bondsOf_count {bonds : List (Entry ℝ)} {y : RStru} (hok : (geom y).Ok) {m : ℕ → ℕ → Bool} {lo hi : ℝ} (h : Lists bonds y m lo hi) (k : ℕ)
    (hk : k < y.atoms.length) (site : ℕ → ℕ) (j : ℕ) (d : ℝ) :
    (((bondsOf bonds k site).count (j, d) : ℕ) : ℝ) = ∑ i ∈ Finset.range y.atoms.length with site i = j,
      if m k i = true then (geom y).sum k i (Geo.cut lo hi fun v => if V3.norm v = d then 1 else 0) else 0 := by
  have hc := geom_cnt y
  have hp := (lists_perm hok h k hk).map fun e => (site e.site1, e.distance)
  unfold bondsOf
  rw [count_sum, (hp.map _).sum_eq, List.map_flatMap, List.map_flatMap, List.flatMap, List.sum_flatten, List.map_map, Finset.sum_filter, Eval.finset_sum_range]
  congr 1
  refine List.map_congr_left fun i hi' => ?_
  have hi' := List.mem_range.1 hi'
  simp only [Function.comp]
  by_cases hm : m k i = true
  · rw [if_pos hm, if_pos hm, List.map_map, List.map_map, ← count_norm _ hok lo hi k i (hc.symm ▸ hk) (hc.symm ▸ hi')]
    show ((vecs (geom y) lo hi k i).map fun v => if (site i, V3.norm v) = (j, d) then (1 : ℝ) else 0).sum = _
    generalize vecs (geom y) lo hi k i = l
    induction l with
    | nil => simp
    | cons v l ih =>
      simp only [List.map_cons, List.count_cons, Nat.cast_add, List.sum_cons]
      rw [ih]
      by_cases hs : site i = j
      · simp [hs, add_comm]
      · simp [hs]
  · rw [if_neg hm, if_neg hm]
    simp

theorem bondsOf_same (h : SameStructure x x' σ ρ) (hok : (geom x).Ok) (hok' : (geom x').Ok) {m : ℕ → ℕ → Option Atom → Option Atom → Bool}
    (hm : SameMask m x x' σ) {lo hi : ℝ} {bonds bonds' : List (Entry ℝ)}
    (h1 : Lists bonds x (fun i j => m i j x.atoms[i]? x.atoms[j]?) lo hi) (h2 : Lists bonds' x' (fun i j => m i j x'.atoms[i]? x'.atoms[j]?) lo hi) (k : ℕ)
    (hk : k < x'.atoms.length) : bondsOf bonds' k σ = bondsOf bonds (σ k) id := by
  classical
  refine Multiset.ext.2 fun ⟨j, d⟩ => ?_
  have hc := geom_cnt x
  have hc' := geom_cnt x'
  have key : (((bondsOf bonds' k σ).count (j, d) : ℕ) : ℝ) = ((bondsOf bonds (σ k) id).count (j, d) : ℕ) := by
    rw [bondsOf_count hok' h2 k hk, bondsOf_count hok h1 (σ k) (h.lt hk)]
    by_cases hj : j < x.atoms.length
    · have e1 : (Finset.range x.atoms.length).filter (fun i => id i = j) = {j} := by
        ext i
        simp only [Finset.mem_filter, Finset.mem_range, id, Finset.mem_singleton]
        exact ⟨fun h => h.2, fun h => ⟨h ▸ hj, h⟩⟩
      rw [e1, Finset.sum_singleton]
      have e2 : ∀ i ∈ (Finset.range x'.atoms.length).filter fun i => σ i = j,
          (if m k i x'.atoms[k]? x'.atoms[i]? = true then (geom x').sum k i (Geo.cut lo hi fun v => if V3.norm v = d then 1 else 0) else 0) =
          (if m (σ k) j x.atoms[σ k]? x.atoms[j]? = true then 1 else 0) * (geom x').sum k i (Geo.cut lo hi fun v => if V3.norm v = d then 1 else 0) := by
        intro i hi'
        obtain ⟨a, b⟩ := Finset.mem_filter.1 hi'
        rw [hm k hk i (Finset.mem_range.1 a), b, ite_mul, one_mul, zero_mul]
      rw [Finset.sum_congr rfl e2, ← Finset.mul_sum]
      have := same_sum h.geo hok hok' lo hi (fun r => if r = d then 1 else 0) k (hc'.symm ▸ hk) j (hc.symm ▸ hj)
      rw [hc'] at this
      rw [this, ite_mul, one_mul, zero_mul]
    · rw [Finset.sum_eq_zero, Finset.sum_eq_zero]
      · intro i hi'
        obtain ⟨a, b⟩ := Finset.mem_filter.1 hi'
        exact absurd (b ▸ Finset.mem_range.1 a) hj
      · intro i hi'
        obtain ⟨a, b⟩ := Finset.mem_filter.1 hi'
        exact absurd (b ▸ h.lt (Finset.mem_range.1 a)) hj
  exact_mod_cast key

/-- All bonds are bonds of a site. -/
theorem all_bonds {bonds : List (Entry ℝ)} {y : RStru} {m : ℕ → ℕ → Bool} {lo hi : ℝ} (h : Lists bonds y m lo hi) (site : ℕ → ℕ) :
    (bonds.map Entry.distance : Multiset ℝ) = ∑ k ∈ Finset.range y.atoms.length, (bondsOf bonds k site).map Prod.snd := by
  have hb : ∀ e ∈ bonds, e.site0 < y.atoms.length := fun e he => (geom_cnt y) ▸ ((h.2 e).1 he).1
  clear h
  unfold bondsOf
  simp only [Multiset.map_coe, List.map_map]
  induction bonds with
  | nil => simp
  | cons e l ih =>
    have ih := ih fun e he => hb e (List.mem_cons_of_mem _ he)
    have e0 := hb e List.mem_cons_self
    have : ∀ k, (((e :: l).filter fun e => e.site0 = k).map (Prod.snd ∘ fun e => (site e.site1, e.distance)) : Multiset ℝ) =
        (if e.site0 = k then ({e.distance} : Multiset ℝ) else 0) + (l.filter fun e => e.site0 = k).map (Prod.snd ∘ fun e => (site e.site1, e.distance)) := by
      intro k
      by_cases hk : e.site0 = k
      · simp [hk]
      · simp [hk]
    simp only [this, Finset.sum_add_distrib]
    rw [← ih, Finset.sum_ite_eq, if_pos (Finset.mem_range.2 e0)]
    rfl

theorem distances_sorted (d : Data ℝ) (h : Sorted d.bonds) : (distances d).Pairwise (· ≤ ·) := by
  unfold distances
  rw [List.pairwise_map]
  refine ((sorted_iff _).1 h).imp fun {a b} hab => ?_
  have hab : toLex (a.distance, _) ≤ toLex (b.distance, _) := hab
  rcases Prod.Lex.le_iff.1 hab with h | h
  · exact h.le
  · exact h.1.le

/-- **C97** for BondCalculator. Two calculators, each after any history of evaluations, full or fast, and configuration calls, with equal limits and masks and
no cones, evaluate two descriptions of the same atoms: every site has the bonds of the site it belongs to, with the same lengths and to the same
sites; the list of distances is repeated `N` times if every site of the first description has `N` sites in the second, and is the same list for `N = 1`. -/
theorem bonds_redescribed_partial (cls cls' : Kind Lat Sym → Prop) (hcls : ∀ a b, cls a → cls b → SameClass a b) (hcls' : ∀ a b, cls' a → cls' b → SameClass a b)
    (s : Sorter) (k : Cls BCfg (SStru cls) ℝ) (k' : Cls BCfg (SStru cls') ℝ) (hk : IsBondCalculator cls s k) (hk' : IsBondCalculator cls' s k')
    (fill fill' : Entry ℝ) (c c' : BCfg) (e : SStru cls) (e' : SStru cls') (ops : List (BOp BCfg (SStru cls))) (ops' : List (BOp BCfg (SStru cls')))
    (ha : ∀ op ∈ ops, BAllowed op) (ha' : ∀ op ∈ ops', BAllowed op)
    (ht : taintAfter k.calc (bcInit (R := ℝ) c e).h false (ops.map BOp.op) = false)
    (ht' : taintAfter k'.calc (bcInit (R := ℝ) c' e').h false (ops'.map BOp.op) = false) (y : SStru cls) (y' : SStru cls') :
    let r := bcEval k fill (bcRun k fill (bcInit c e) ops) y
    let r' := bcEval k' fill' (bcRun k' fill' (bcInit c' e') ops') y'
    r'.h.cfg = r.h.cfg → activeCones [] r.h.cfg.cones = [] → SameStructure y.1 y'.1 σ ρ → SameMask r.h.cfg.mask y.1 y'.1 σ →
    (∀ i < y'.1.atoms.length, bondsOf r'.d.bonds i σ = bondsOf r.d.bonds (σ i) id) ∧
    (∀ N : ℕ, (∀ j < y.1.atoms.length, ((Finset.range y'.1.atoms.length).filter fun i => σ i = j).card = N) →
      (distances r'.d : Multiset ℝ) = N • (distances r.d : Multiset ℝ) ∧ (N = 1 → distances r'.d = distances r.d)) := by
  intro r r' hcf hcones h hm
  obtain ⟨a1, a2, -, a4⟩ := bond_history_partial cls hcls s k hk fill c e ops ha ht y
  obtain ⟨b1, b2, -, b4⟩ := bond_history_partial cls' hcls' s k' hk' fill' c' e' ops' ha' ht' y'
  have hcf : (bcEval k' fill' (bcRun k' fill' (bcInit c' e') ops') y').h.cfg = r.h.cfg := hcf
  rw [hcf] at b4
  have hcones : activeCones [] (bcEval k fill (bcRun k fill (bcInit c e) ops) y).h.cfg.cones = [] := hcones
  rw [hcones] at a4 b4
  have la : Lists r.d.bonds y.1 _ _ _ := ⟨a2, a4⟩
  have lb : Lists r'.d.bonds y'.1 _ _ _ := ⟨b2, b4⟩
  have hs := fun i hi => bondsOf_same h y.2.2 y'.2.2 hm la lb i hi
  refine ⟨hs, fun N hN => ?_⟩
  have hmul : (distances r'.d : Multiset ℝ) = N • (distances r.d : Multiset ℝ) := by
    unfold distances
    rw [all_bonds la id, all_bonds lb σ, Finset.sum_congr rfl fun i hi => by rw [hs i (Finset.mem_range.1 hi)],
      ← Finset.sum_fiberwise_of_maps_to (g := σ) (t := Finset.range y.1.atoms.length) fun i hi => Finset.mem_range.2 (h.lt (Finset.mem_range.1 hi)), Finset.smul_sum]
    refine Finset.sum_congr rfl fun j hj => ?_
    rw [Finset.sum_congr rfl fun i hi => by rw [(Finset.mem_filter.1 hi).2], Finset.sum_const, hN j (Finset.mem_range.1 hj)]
  refine ⟨hmul, ?_⟩
  rintro rfl
  rw [one_smul] at hmul
  exact (Multiset.coe_eq_coe.1 hmul).eq_of_pairwise (fun a b _ _ => le_antisymm) (distances_sorted _ b1) (distances_sorted _ a1)

/-- The pair of ions and the same pair moved and in the other order: calculators exist, the lists of distances are equal. -/
example (s : Sorter) (fill : Entry ℝ) (c : BCfg) (hc : c.cones = []) (hm : ∀ i j a b, c.mask i j a b = true) : let cls : Kind Lat Sym → Prop := fun k => k = .atomic
    let y : SStru cls := ⟨BVHist.exIons, rfl, trivial⟩
    let y' : SStru cls := ⟨⟨.atomic, (BVHist.exIons.atoms.map (moveAtom 1 2 3)).reverse⟩, rfl, trivial⟩
    ∃ k : Cls BCfg (SStru cls) ℝ, IsBondCalculator cls s k ∧ distances (bcEval k fill (bcInit c y') y').d = distances (bcEval k fill (bcInit c y) y).d := by
  intro cls y y'
  obtain ⟨k, hk⟩ := calculator_exists cls s
  have hs : SameStructure y.1 y'.1 (fun k => 2 - 1 - k) _ := cluster_reversed BVHist.exIons.atoms 1 2 3
  have hcls : ∀ a b, cls a → cls b → SameClass a b := fun a b h1 h2 => by
    have h1 : a = .atomic := h1
    have h2 : b = .atomic := h2
    rw [h1, h2]
    trivial
  have hcfg : ∀ z, (bcEval k fill (bcRun k fill (bcInit c z) []) z).h.cfg = c := by
    intro z
    show (evalSt k.calc (bcInit (R := ℝ) c z).h z).cfg = c
    rw [evalSt_eq]
    show (optFinal k.calc z (bcInit (R := ℝ) c z).h).cfg = _
    have hf : fastChoice k.calc (bcInit (R := ℝ) c z).h z = none := rfl
    unfold optFinal
    rw [hf]
    refine (basicFinal_cfg k.calc 0 1 z (bcInit (R := ℝ) c z).h).trans ?_
    show (k.custom z c).1 = c
    rw [hk.custom]
  have h := bonds_redescribed_partial cls cls hcls hcls s k k hk hk fill fill c c y y' [] [] (fun _ h => by cases h) (fun _ h => by cases h) rfl rfl y y'
    (by rw [hcfg, hcfg]) (by rw [hcfg, hc]; rfl) hs (fun i _ j _ => by rw [hcfg, hm, hm])
  refine ⟨k, hk, ((h.2 1 fun j hj => ?_).2 rfl)⟩
  have hj : j < 2 := hj
  have : j = 0 ∨ j = 1 := by omega
  rcases this with rfl | rfl
  · exact (by decide : ((Finset.range 2).filter fun k => 2 - 1 - k = 0).card = 1)
  · exact (by decide : ((Finset.range 2).filter fun k => 2 - 1 - k = 1).card = 1)

end Verif.BondCalc
