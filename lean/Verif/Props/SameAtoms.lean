import Verif.Props.Geometry
import Mathlib.Algebra.BigOperators.Finprod
/-! Two structures that describe the same atoms in space: sums over the neighbours of an atom are the same. -/
set_option linter.unusedSectionVars false
namespace Verif.Geo
open Verif.BondGen Verif.Eval Verif.R3 Verif.Lattice Verif.Periodic
open Verif.PDFCache (shift imageVec Orbit moved orbitSum orbitSum_eq equivPos_apart equivPos_ne move_trans move_bijOn move_distance moved_inj
  moved_moved moved_zero shift_add headD_mem mem_orbit)
open Verif.Crystal (Crys equivPos)

/-! ### Specification -/

/-- Where the atoms of site `j` are in space: at one point in a cluster, at all lattice translations of the position in a periodic structure, at all
lattice translations of all equivalent positions in a crystal. -/
def Geometry.atomsOf : Geometry → ℕ → Set V3
  | .cluster _ pos, j => {pos j}
  | .periodic _ L xyz, j => {p | ∃ t, p = moved L (xyz j) t}
  | .crystal c, j => Orbit c.L (equivPos c j)

/-- `g'` describes the same atoms as `g`, moved as a whole by the isometry `ρ`: the atoms of the site `k` of `g'` are atoms of the site `σ k` of `g`, and every
atom of `g` belongs to exactly one site of `g'`. -/
structure SameAtoms (g g' : Geometry) (σ : ℕ → ℕ) (ρ : V3 → V3) : Prop where
  iso : ∀ p q, V3.distance (ρ p) (ρ q) = V3.distance p q
  site : ∀ k < g'.cnt, σ k < g.cnt
  atom : ∀ k < g'.cnt, ∀ p' ∈ g'.atomsOf k, ∃ p ∈ g.atomsOf (σ k), ρ p = p'
  once : ∀ j < g.cnt, ∀ p ∈ g.atomsOf j, ∃! k, k < g'.cnt ∧ σ k = j ∧ ρ p ∈ g'.atomsOf k

/-! ### Sums over the atoms -/

theorem distance_zero {p q : V3} (h : V3.distance p q = 0) : p = q := by
  have e := V3.norm_eq_zero _ h
  have h1 := congrArg V3.x e
  have h2 := congrArg V3.y e
  have h3 := congrArg V3.z e
  simp only [V3.sub, V3.zero] at h1 h2 h3
  ext <;> linarith

theorem cut_norm (lo hi : ℝ) (ψ : ℝ → ℝ) (q p : V3) :
    cut lo hi (fun v => ψ (V3.norm v)) (V3.sub q p) = if InRange lo hi (V3.distance q p) then ψ (V3.distance q p) else 0 := rfl

theorem atoms_nonempty (g : Geometry) (hok : g.Ok) (i : ℕ) (h : i < g.cnt) : ∃ p, p ∈ g.atomsOf i := by
  cases g with
  | cluster n pos => exact ⟨_, rfl⟩
  | periodic n L xyz => exact ⟨_, 0, rfl⟩
  | crystal c => exact ⟨_, mem_orbit c.L _ _ (headD_mem _ V3.zero (equivPos_ne c hok.1.eps i h)) 0⟩

theorem sub_moved (L : Lat) (q p : V3) (s t : ℤ × ℤ × ℤ) : V3.sub (moved L q s) (moved L p t) = V3.sub (moved L q (s - t)) p := by
  have e : moved L q s = moved L (moved L q (s - t)) t := by rw [moved_moved, sub_add_cancel]
  rw [e]
  unfold moved
  ext <;> simp [V3.sub, V3.add]

/-- Atoms in range of an atom are finitely many. -/
theorem atoms_finite (g : Geometry) (hok : g.Ok) (lo hi : ℝ) (i j : ℕ) (h1 : i < g.cnt) (h2 : j < g.cnt) (p : V3) (hp : p ∈ g.atomsOf i) :
    {q | q ∈ g.atomsOf j ∧ InRange lo hi (V3.distance q p)}.Finite := by
  cases g with
  | cluster n pos => exact Set.Finite.subset (Set.finite_singleton (pos j)) fun q hq => hq.1
  | periodic n L xyz =>
    obtain ⟨t, rfl⟩ := hp
    have hf := range_finite (.periodic n L xyz) hok lo hi i j h1 h2
    refine Set.Finite.subset (hf.image fun s => moved L (xyz j) (s + t)) ?_
    rintro q ⟨⟨s, rfl⟩, hq⟩
    refine ⟨s - t, ?_, by simp⟩
    show InRange lo hi (V3.norm (V3.sub (moved L (xyz j) (s - t)) (xyz i)))
    rw [← sub_moved]; exact hq
  | crystal c =>
    obtain ⟨p0, hp0, t, rfl⟩ := hp
    have hf := range_finite (.crystal c) hok lo hi i j h1 h2 p0 hp0
    have : (⋃ q0 ∈ {q0 | q0 ∈ equivPos c j}, (fun s => moved c.L q0 (s + t)) '' {s | InRange lo hi (V3.norm (V3.sub (moved c.L q0 s) p0))}).Finite :=
      Set.Finite.biUnion (List.finite_toSet _) fun q0 hq0 => (hf q0 hq0).image _
    refine Set.Finite.subset this ?_
    rintro q ⟨⟨q0, hq0, s, rfl⟩, hq⟩
    simp only [Set.mem_iUnion]
    refine ⟨q0, hq0, s - t, ?_, by simp⟩
    show InRange lo hi (V3.norm (V3.sub (moved c.L q0 (s - t)) p0))
    rw [← sub_moved]; exact hq

/-- The symmetry operations of a crystal keep the term. -/
def Geometry.Keeps : Geometry → (V3 → ℝ) → Prop
  | .crystal c, f => ∀ op ∈ c.ops, ∀ v, f (PDFCache.rotC c.L op v) = f v
  | _, _ => True

/-- A term that the operations of both structures keep, and that is the same for a vector and the moved vector. -/
def Fits (g g' : Geometry) (ρ : V3 → V3) (f : V3 → ℝ) : Prop :=
  g.Keeps f ∧ g'.Keeps f ∧ ∀ p q, f (V3.sub (ρ p) (ρ q)) = f (V3.sub p q)

theorem keeps_norm (g : Geometry) (hok : g.Ok) (ψ : ℝ → ℝ) : g.Keeps fun v => ψ (V3.norm v) := by
  cases g with
  | cluster n pos => trivial
  | periodic n L xyz => trivial
  | crystal c => exact fun op hop v => congrArg ψ (PDFCache.rotC_norm hok.1.lat hok.2 op hop v)

/-- A term that depends on the length of the vector only. -/
theorem fits_norm {g g' : Geometry} {σ : ℕ → ℕ} {ρ : V3 → V3} (h : SameAtoms g g' σ ρ) (hok : g.Ok) (hok' : g'.Ok) (ψ : ℝ → ℝ) :
    Fits g g' ρ fun v => ψ (V3.norm v) :=
  ⟨keeps_norm g hok ψ, keeps_norm g' hok' ψ, fun p q => congrArg ψ (h.iso p q)⟩

/-- The sum over the neighbours of site `i` of site `j` is the sum over the atoms of `j` in space, seen from any atom of `i`. -/
theorem sum_atoms (g : Geometry) (hok : g.Ok) (lo hi : ℝ) (f : V3 → ℝ) (hf : g.Keeps f) (i j : ℕ) (h1 : i < g.cnt) (h2 : j < g.cnt) (p : V3) (hp : p ∈ g.atomsOf i) :
    g.sum i j (cut lo hi f) = ∑ᶠ q ∈ g.atomsOf j, cut lo hi f (V3.sub q p) := by
  have hfin := atoms_finite g hok lo hi i j h1 h2
  set F := cut lo hi f with hF
  have hsupp : ∀ p ∈ g.atomsOf i, (g.atomsOf j ∩ Function.support fun q => F (V3.sub q p)).Finite := by
    intro p hp
    refine Set.Finite.subset (hfin p hp) ?_
    rintro q ⟨hq, hs⟩
    refine ⟨hq, ?_⟩
    by_contra hn
    exact hs (if_neg hn)
  cases g with
  | cluster n pos =>
    have hp : p = pos i := hp
    subst hp
    show F (V3.sub (pos j) (pos i)) = ∑ᶠ q ∈ ({pos j} : Set V3), F (V3.sub q (pos i))
    rw [finsum_mem_singleton]
  | periodic n L xyz =>
    obtain ⟨t, rfl⟩ := hp
    show ∑ᶠ s, F (imageVec L xyz i j s) = ∑ᶠ q ∈ {p | ∃ t, p = moved L (xyz j) t}, F (V3.sub q (moved L (xyz i) t))
    have hr : {p | ∃ t, p = moved L (xyz j) t} = Set.range (moved L (xyz j)) := by
      ext p; exact ⟨fun ⟨t, h⟩ => ⟨t, h.symm⟩, fun ⟨t, h⟩ => ⟨t, h.symm⟩⟩
    rw [hr, finsum_mem_range (moved_inj L hok.1 _), ← finsum_comp_equiv (Equiv.addRight t)
      (f := fun s => F (V3.sub (moved L (xyz j) s) (moved L (xyz i) t)))]
    refine finsum_congr fun s => ?_
    show _ = F (V3.sub (moved L (xyz j) (s + t)) (moved L (xyz i) t))
    rw [sub_moved, add_sub_cancel_right]
    rfl
  | crystal c =>
    obtain ⟨hc, hS⟩ := id hok
    have hhead : (equivPos c i).headD V3.zero ∈ equivPos c i := headD_mem _ _ (equivPos_ne c hc.eps i h1)
    have hhead' : (equivPos c i).headD V3.zero ∈ Orbit c.L (equivPos c i) := by
      have := mem_orbit c.L _ _ hhead 0
      rwa [moved_zero] at this
    show orbitSum c.L (equivPos c j) (fun x => F (V3.sub x ((equivPos c i).headD V3.zero))) = _
    rw [orbitSum_eq c.L hc.lat _ (equivPos_apart c hc j h2) _ (hsupp _ hhead')]
    obtain ⟨a, ha, k, hk⟩ := move_trans c hc hS i h1 _ p hhead' hp
    refine finsum_mem_eq_of_bijOn _ (move_bijOn c hc hS a ha k j h2) fun x _ => ?_
    rw [hF, ← hk, PDFCache.move_sub]
    unfold cut
    rw [hf a ha, PDFCache.rotC_norm hc.lat hS a ha]

/-- The neighbours of a site of `g'` at all sites of `g'` that belong to site `j` of `g` are the neighbours in `g`. -/
theorem same_sum_vec {g g' : Geometry} {σ : ℕ → ℕ} {ρ : V3 → V3} (h : SameAtoms g g' σ ρ) (hok : g.Ok) (hok' : g'.Ok) (lo hi : ℝ) (f : V3 → ℝ) (hf : Fits g g' ρ f)
    (i : ℕ) (hi' : i < g'.cnt) (j : ℕ) (hj : j < g.cnt) :
    ∑ k ∈ Finset.range g'.cnt with σ k = j, g'.sum i k (cut lo hi f) = g.sum (σ i) j (cut lo hi f) := by
  obtain ⟨p', hp'⟩ := atoms_nonempty g' hok' i hi'
  obtain ⟨p, hp, rfl⟩ := h.atom i hi' p' hp'
  have hsi := h.site i hi'
  set F := cut lo hi f with hF
  have hinj : Function.Injective ρ := fun a b hab => by
    apply distance_zero
    rw [← h.iso, hab]
    simp [V3.distance, V3.norm, V3.sub, V3.dot]
  rw [sum_atoms g hok lo hi f hf.1 (σ i) j hsi hj p hp, ← hF]
  have hFe : ∀ q, F (V3.sub (ρ q) (ρ p)) = F (V3.sub q p) := fun q => by
    have hi : V3.norm (V3.sub (ρ q) (ρ p)) = V3.norm (V3.sub q p) := h.iso q p
    rw [hF]
    unfold cut
    rw [hf.2.2, hi]
  -- the atoms of `j` that belong to `k`
  let A : ℕ → Set V3 := fun k => {q | q ∈ g.atomsOf j ∧ ρ q ∈ g'.atomsOf k ∧ InRange lo hi (V3.distance q p)}
  have hAfin : ∀ k, (A k).Finite := fun k => (atoms_finite g hok lo hi (σ i) j hsi hj p hp).subset fun q hq => ⟨hq.1, hq.2.2⟩
  have hterm : ∀ k ∈ (Finset.range g'.cnt).filter fun k => σ k = j, g'.sum i k F = ∑ᶠ q ∈ A k, F (V3.sub q p) := by
    intro k hk
    obtain ⟨hk1, hk2⟩ := Finset.mem_filter.1 hk
    have hk1 := Finset.mem_range.1 hk1
    rw [sum_atoms g' hok' lo hi f hf.2.1 i k hi' hk1 _ hp', ← hF, ← finsum_mem_inter_support]
    symm
    rw [← finsum_mem_inter_support]
    refine finsum_mem_eq_of_bijOn ρ ⟨?_, fun a _ b _ hab => hinj hab, ?_⟩ fun q _ => (hFe q).symm
    · rintro q ⟨⟨h1, h2, h3⟩, h4⟩
      refine ⟨h2, ?_⟩
      rw [Function.mem_support] at h4 ⊢
      rwa [hFe]
    · rintro q' ⟨h1, h2⟩
      obtain ⟨q, hq, rfl⟩ := h.atom k hk1 q' h1
      rw [Function.mem_support, hFe] at h2
      rw [hk2] at hq
      refine ⟨q, ⟨⟨hq, h1, ?_⟩, h2⟩, rfl⟩
      by_contra hn
      exact h2 (if_neg hn)
  rw [Finset.sum_congr rfl hterm]
  have hdisj : Set.PairwiseDisjoint (((Finset.range g'.cnt).filter fun k => σ k = j : Finset ℕ) : Set ℕ) A := by
    intro a ha b hb hab
    have ha := Finset.mem_filter.1 (Finset.mem_coe.1 ha)
    have hb := Finset.mem_filter.1 (Finset.mem_coe.1 hb)
    refine Set.disjoint_left.2 fun q h1 h2 => hab ?_
    exact (h.once j hj q h1.1).unique ⟨Finset.mem_range.1 ha.1, ha.2, h1.2.1⟩ ⟨Finset.mem_range.1 hb.1, hb.2, h2.2.1⟩
  rw [← finsum_mem_coe_finset, ← finsum_mem_biUnion hdisj (Finset.finite_toSet _) fun k _ => hAfin k]
  rw [← finsum_mem_inter_support, ← finsum_mem_inter_support (s := g.atomsOf j)]
  have hset : ((⋃ k ∈ (((Finset.range g'.cnt).filter fun k => σ k = j : Finset ℕ) : Set ℕ), A k) ∩ Function.support fun q => F (V3.sub q p)) =
      g.atomsOf j ∩ Function.support fun q => F (V3.sub q p) := by
    ext q
    simp only [Set.mem_inter_iff, Set.mem_iUnion, Finset.coe_filter, Set.mem_ofPred_eq]
    constructor
    · rintro ⟨⟨k, -, hk⟩, hs⟩
      exact ⟨hk.1, hs⟩
    · rintro ⟨hq, hs⟩
      refine ⟨?_, hs⟩
      obtain ⟨k, ⟨hk1, hk2, hk3⟩, -⟩ := h.once j hj q hq
      refine ⟨k, ⟨Finset.mem_range.2 hk1, hk2⟩, hq, hk3, ?_⟩
      by_contra hn
      exact hs (if_neg hn)
  rw [hset]

/-- The same for terms that depend on the length of the vector. -/
theorem same_sum {g g' : Geometry} {σ : ℕ → ℕ} {ρ : V3 → V3} (h : SameAtoms g g' σ ρ) (hok : g.Ok) (hok' : g'.Ok) (lo hi : ℝ) (ψ : ℝ → ℝ)
    (i : ℕ) (hi' : i < g'.cnt) (j : ℕ) (hj : j < g.cnt) :
    ∑ k ∈ Finset.range g'.cnt with σ k = j, g'.sum i k (cut lo hi fun v => ψ (V3.norm v)) = g.sum (σ i) j (cut lo hi fun v => ψ (V3.norm v)) :=
  same_sum_vec h hok hok' lo hi _ (fits_norm h hok hok' ψ) i hi' j hj

/-- Every site of `g` has a site of `g'`. -/
theorem same_onto {g g' : Geometry} {σ : ℕ → ℕ} {ρ : V3 → V3} (h : SameAtoms g g' σ ρ) (hok : g.Ok) (j : ℕ) (hj : j < g.cnt) : ∃ k < g'.cnt, σ k = j := by
  obtain ⟨p, hp⟩ := atoms_nonempty g hok j hj
  obtain ⟨k, ⟨h1, h2, -⟩, -⟩ := h.once j hj p hp
  exact ⟨k, h1, h2⟩

/-- The sum over all neighbours of a site, of terms that depend on the other site and the distance. -/
theorem same_neighbours {g g' : Geometry} {σ : ℕ → ℕ} {ρ : V3 → V3} (h : SameAtoms g g' σ ρ) (hok : g.Ok) (hok' : g'.Ok) (lo hi : ℝ) (ψ : ℕ → ℝ → ℝ)
    (i : ℕ) (hi' : i < g'.cnt) :
    ∑ k ∈ Finset.range g'.cnt, g'.sum i k (cut lo hi fun v => ψ (σ k) (V3.norm v)) =
      ∑ j ∈ Finset.range g.cnt, g.sum (σ i) j (cut lo hi fun v => ψ j (V3.norm v)) := by
  rw [← Finset.sum_fiberwise_of_maps_to (g := σ) (t := Finset.range g.cnt) fun k hk => Finset.mem_range.2 (h.site k (Finset.mem_range.1 hk))]
  refine Finset.sum_congr rfl fun j hj => ?_
  rw [← same_sum h hok hok' lo hi (ψ j) i hi' j (Finset.mem_range.1 hj)]
  refine Finset.sum_congr rfl fun k hk => ?_
  rw [(Finset.mem_filter.1 hk).2]

/-- The same with terms given for the sites of both structures, factors and masks: the terms `Φ'` of `g'` are those of `g`. -/
theorem same_terms_vec {g g' : Geometry} {σ : ℕ → ℕ} {ρ : V3 → V3} (h : SameAtoms g g' σ ρ) (hok : g.Ok) (hok' : g'.Ok) (lo hi : ℝ) (Φ Φ' : ℕ → ℕ → V3 → ℝ)
    (m m' : ℕ → ℕ → Bool) (c c' : ℕ → ℕ → ℝ) (hm : ∀ i < g'.cnt, ∀ k < g'.cnt, m' i k = m (σ i) (σ k))
    (hc : ∀ i < g'.cnt, ∀ k < g'.cnt, c' i k = c (σ i) (σ k))
    (hΦ : ∀ i < g'.cnt, ∀ k < g'.cnt, ∀ v, InRange lo hi (V3.norm v) → Φ' i k v = Φ (σ i) (σ k) v) (hf : ∀ i < g.cnt, ∀ j < g.cnt, Fits g g' ρ (Φ i j)) (i : ℕ) (hi' : i < g'.cnt) :
    (∑ k ∈ Finset.range g'.cnt, if m' i k = true then c' i k * g'.sum i k (cut lo hi (Φ' i k)) else 0) =
      ∑ j ∈ Finset.range g.cnt, if m (σ i) j = true then c (σ i) j * g.sum (σ i) j (cut lo hi (Φ (σ i) j)) else 0 := by
  rw [← Finset.sum_fiberwise_of_maps_to (g := σ) (t := Finset.range g.cnt) fun k hk => Finset.mem_range.2 (h.site k (Finset.mem_range.1 hk))]
  refine Finset.sum_congr rfl fun j hj => ?_
  have e : ∀ k ∈ (Finset.range g'.cnt).filter fun k => σ k = j, (if m' i k = true then c' i k * g'.sum i k (cut lo hi (Φ' i k)) else 0) =
      (if m (σ i) j = true then c (σ i) j else 0) * g'.sum i k (cut lo hi (Φ (σ i) j)) := by
    intro k hk
    obtain ⟨h1, h2⟩ := Finset.mem_filter.1 hk
    have h1 := Finset.mem_range.1 h1
    rw [hm i hi' k h1, hc i hi' k h1, h2]
    have ec : (cut lo hi (Φ' i k)) = cut lo hi (Φ (σ i) j) := by
      funext v
      unfold cut
      by_cases hr : InRange lo hi (V3.norm v)
      · rw [if_pos hr, if_pos hr]
        show Φ' i k _ = Φ _ _ _
        rw [hΦ i hi' k h1 _ hr, h2]
      · rw [if_neg hr, if_neg hr]
    rw [ec]
    split
    · rfl
    · rw [zero_mul]
  rw [Finset.sum_congr rfl e, ← Finset.mul_sum, same_sum_vec h hok hok' lo hi (Φ (σ i) j) (hf _ (h.site i hi') _ (Finset.mem_range.1 hj)) i hi' j (Finset.mem_range.1 hj)]
  split
  · rfl
  · rw [zero_mul]

/-- The same for terms that depend on the length of the vector. -/
theorem same_terms {g g' : Geometry} {σ : ℕ → ℕ} {ρ : V3 → V3} (h : SameAtoms g g' σ ρ) (hok : g.Ok) (hok' : g'.Ok) (lo hi : ℝ) (Φ Φ' : ℕ → ℕ → ℝ → ℝ)
    (m m' : ℕ → ℕ → Bool) (c c' : ℕ → ℕ → ℝ) (hm : ∀ i < g'.cnt, ∀ k < g'.cnt, m' i k = m (σ i) (σ k))
    (hc : ∀ i < g'.cnt, ∀ k < g'.cnt, c' i k = c (σ i) (σ k))
    (hΦ : ∀ i < g'.cnt, ∀ k < g'.cnt, ∀ d, InRange lo hi d → Φ' i k d = Φ (σ i) (σ k) d) (i : ℕ) (hi' : i < g'.cnt) :
    (∑ k ∈ Finset.range g'.cnt, if m' i k = true then c' i k * g'.sum i k (cut lo hi fun v => Φ' i k (V3.norm v)) else 0) =
      ∑ j ∈ Finset.range g.cnt, if m (σ i) j = true then c (σ i) j * g.sum (σ i) j (cut lo hi fun v => Φ (σ i) j (V3.norm v)) else 0 :=
  same_terms_vec h hok hok' lo hi (fun i j v => Φ i j (V3.norm v)) (fun i j v => Φ' i j (V3.norm v)) m m' c c' hm hc (fun i hi k hk _ hr => hΦ i hi k hk _ hr)
    (fun i _ j _ => fits_norm h hok hok' (Φ i j)) i hi'

/-- Sums over the sites weighted with multiplicities: `N` times as large when there are `N` times as many atoms of every site in the cell. -/
theorem same_total {g g' : Geometry} {σ : ℕ → ℕ} {ρ : V3 → V3} (h : SameAtoms g g' σ ρ) (N : ℝ)
    (hN : ∀ j < g.cnt, ∑ k ∈ Finset.range g'.cnt with σ k = j, (g'.mult k : ℝ) = N * g.mult j) (A A' : ℕ → ℝ) (hA : ∀ k < g'.cnt, A' k = A (σ k)) :
    ∑ k ∈ Finset.range g'.cnt, (g'.mult k : ℝ) * A' k = N * ∑ j ∈ Finset.range g.cnt, (g.mult j : ℝ) * A j := by
  rw [← Finset.sum_fiberwise_of_maps_to (g := σ) (t := Finset.range g.cnt) fun k hk => Finset.mem_range.2 (h.site k (Finset.mem_range.1 hk)), Finset.mul_sum]
  refine Finset.sum_congr rfl fun j hj => ?_
  rw [← mul_assoc, ← hN j (Finset.mem_range.1 hj), Finset.sum_mul]
  refine Finset.sum_congr rfl fun k hk => ?_
  obtain ⟨h1, h2⟩ := Finset.mem_filter.1 hk
  rw [hA k (Finset.mem_range.1 h1), h2]

end Verif.Geo
