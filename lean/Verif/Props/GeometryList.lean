import Verif.Props.Geometry
/-! Every vector to another atom is delivered exactly once, and the lists of these vectors. -/
namespace Verif.Geo
open Verif.BondGen Verif.Eval Verif.R3 Verif.Lattice Verif.Periodic
open Verif.PDFCache (shift imageVec moved Orbit orbitSum orbitSum_eq ExactCrystal SpaceGroup spaceGroup_sym equivPos_ne headD_mem mem_orbit moved_inj)
open Verif.Crystal (Crys equivPos)

open Classical in
theorem vec_once (g : Geometry) (hok : g.Ok) (i j : ℕ) (h1 : i < g.cnt) (h2 : j < g.cnt) (v : V3) (hv : g.IsVec i j v) (lo hi : ℝ)
    (hr : InRange lo hi (V3.norm v)) : g.sum i j (cut lo hi fun w => if w = v then 1 else 0) = 1 := by
  have h0 : cut lo hi (fun w => if w = v then (1 : ℝ) else 0) v = 1 := by
    unfold cut
    dsimp only
    rw [if_pos hr, if_pos rfl]
  have hne : ∀ w, w ≠ v → cut lo hi (fun w => if w = v then (1 : ℝ) else 0) w = 0 := by
    intro w hw
    unfold cut
    dsimp only
    rw [if_neg hw, ite_self]
  cases g with
  | cluster n pos =>
    show cut lo hi (fun w => if w = v then (1 : ℝ) else 0) (V3.sub (pos j) (pos i)) = 1
    rw [← show v = V3.sub (pos j) (pos i) from hv]
    exact h0
  | periodic n L xyz =>
    obtain ⟨s, hs⟩ := hv
    show ∑ᶠ s, cut lo hi (fun w => if w = v then (1 : ℝ) else 0) (imageVec L xyz i j s) = 1
    rw [finsum_eq_single _ s, ← hs]
    · exact h0
    · intro t ht
      refine hne _ fun he => ht ?_
      rw [hs] at he
      apply moved_inj L hok.1 (xyz j)
      unfold imageVec at he
      unfold moved
      have hx := congrArg V3.x he
      have hy := congrArg V3.y he
      have hz := congrArg V3.z he
      simp only [V3.sub, V3.add] at hx hy hz
      ext <;> simp only [V3.add] <;> linarith
  | crystal c =>
    obtain ⟨hc, hS⟩ := hok
    have hW : PDFCache.CrystalSym c.L c.atoms.length (equivPos c) (fun _ _ _ _ => (0 : ℝ)) :=
      spaceGroup_sym c hc hS _ (fun _ _ _ _ _ _ _ _ _ _ _ => rfl) (fun _ _ _ _ _ _ _ _ => rfl)
    set p := (equivPos c i).headD V3.zero with hp
    obtain ⟨q, hq, s, hs⟩ := hv
    have hz : ∀ z, z ≠ moved c.L q s → cut lo hi (fun w => if w = v then (1 : ℝ) else 0) (V3.sub z p) = 0 := by
      intro z hz
      refine hne _ fun he => hz ?_
      rw [hs] at he
      have hx := congrArg V3.x he
      have hy := congrArg V3.y he
      have hz := congrArg V3.z he
      simp only [V3.sub] at hx hy hz
      ext <;> linarith
    have e := orbitSum_eq c.L hc.lat _ (hW.apart j h2) (fun z => cut lo hi (fun w => if w = v then (1 : ℝ) else 0) (V3.sub z p)) (by
      refine Set.Finite.subset (Set.finite_singleton (moved c.L q s)) ?_
      rintro z ⟨-, hz'⟩
      by_contra hn
      exact hz' (hz z hn))
    refine Eq.trans (show _ = orbitSum c.L (equivPos c j) (fun z => cut lo hi (fun w => if w = v then (1 : ℝ) else 0) (V3.sub z p)) from rfl) ?_
    rw [e, finsum_mem_def, finsum_eq_single _ (moved c.L q s), Set.indicator_of_mem (mem_orbit c.L _ q hq s), ← hs]
    · exact h0
    · intro z hzn
      rw [Set.indicator_apply]
      split
      · exact hz z hzn
      · rfl

open Classical in
theorem delivers_nodup {g : Geometry} (hok : g.Ok) {lo hi : ℝ} {gen : Gen Bond} {bonds : ℕ → ℕ → List Bond} (hd : Delivers g lo hi gen bonds)
    (i j : ℕ) (h1 : i < g.cnt) (h2 : j < g.cnt) : ((bonds i j).map fun b => b.r01).Nodup := by
  rw [List.nodup_iff_count_le_one]
  intro v
  by_cases hv : v ∈ (bonds i j).map fun b => b.r01
  · obtain ⟨b, hb, hbv⟩ := List.mem_map.1 hv
    obtain ⟨hv1, hv2⟩ := (hd.mem i h1 j h2 v).1 ⟨b, hb, hbv⟩
    have h := hd.sum i h1 j h2 fun w => if w = v then 1 else 0
    rw [vec_once g hok i j h1 h2 v hv1 lo hi hv2] at h
    have hc : ∀ l : List Bond, (l.map fun b => if b.r01 = v then (1 : ℝ) else 0).sum = ((l.map fun b => b.r01).count v : ℝ) := by
      intro l
      induction l with
      | nil => simp
      | cons a l ih =>
        rw [List.map_cons, List.sum_cons, ih, List.map_cons, List.count_cons]
        by_cases ha : a.r01 = v
        · simp [ha]; ring
        · simp [ha]
    rw [hc] at h
    have : ((bonds i j).map fun b => b.r01).count v = 1 := by exact_mod_cast h
    exact this.le
  · rw [List.count_eq_zero_of_not_mem hv]; exact Nat.zero_le _

/-- The vectors from site `i` to atoms of site `j` in range, in some order. -/
noncomputable def vecs (g : Geometry) (lo hi : ℝ) (i j : ℕ) : List V3 :=
  open Classical in
  if h : {v | g.IsVec i j v ∧ InRange lo hi (V3.norm v)}.Finite ∧ i < g.cnt ∧ j < g.cnt then h.1.toFinset.toList else []

theorem vecs_spec (g : Geometry) (hok : g.Ok) (lo hi : ℝ) (i j : ℕ) (h1 : i < g.cnt) (h2 : j < g.cnt) :
    (vecs g lo hi i j).Nodup ∧ ∀ v, v ∈ vecs g lo hi i j ↔ g.IsVec i j v ∧ InRange lo hi (V3.norm v) := by
  obtain ⟨gen, hgen⟩ := gen_exists g lo hi
  obtain ⟨bonds, hd⟩ := delivers g hok lo hi gen hgen
  have hf : {v | g.IsVec i j v ∧ InRange lo hi (V3.norm v)}.Finite := by
    refine Set.Finite.subset (List.finite_toSet ((bonds i j).map fun b => b.r01)) fun v hv => ?_
    obtain ⟨b, hb, hbv⟩ := (hd.mem i h1 j h2 v).2 hv
    exact List.mem_map.2 ⟨b, hb, hbv⟩
  unfold vecs
  rw [dif_pos ⟨hf, h1, h2⟩]
  refine ⟨Finset.nodup_toList _, fun v => ?_⟩
  rw [Finset.mem_toList, Set.Finite.mem_toFinset]
  rfl

/-- The bonds delivered between two sites have exactly these vectors. -/
theorem delivers_vecs {g : Geometry} (hok : g.Ok) {lo hi : ℝ} {gen : Gen Bond} {bonds : ℕ → ℕ → List Bond} (hd : Delivers g lo hi gen bonds)
    (i j : ℕ) (h1 : i < g.cnt) (h2 : j < g.cnt) : ((bonds i j).map fun b => b.r01).Perm (vecs g lo hi i j) := by
  obtain ⟨n1, n2⟩ := vecs_spec g hok lo hi i j h1 h2
  rw [List.perm_ext_iff_of_nodup (delivers_nodup hok hd i j h1 h2) n1]
  intro v
  rw [n2, ← hd.mem i h1 j h2 v, List.mem_map]

/-- What is read from the generator of a structure, in whatever way it depends on distance and vector. -/
theorem gen_vecs {B : Type} (g : Geometry) (hok : g.Ok) (lo hi : ℝ) (gen : Gen Bond) (hgen : g.IsGen lo hi gen) (φ : Bond → B) (ψ : V3 → B)
    (hφ : ∀ b, b.distance = V3.norm b.r01 → φ b = ψ b.r01) (i : ℕ) (h1 : i < g.cnt) (sel : List ℕ) (h2 : ∀ j ∈ sel, j < g.cnt) :
    (mapGen φ gen i sel).Perm (sel.flatMap fun j => ((vecs g lo hi i j).map ψ).map fun b => (j, b)) := by
  obtain ⟨bonds, hd⟩ := delivers g hok lo hi gen hgen
  obtain ⟨gen1, hs, he⟩ := hd.spec
  have e : mapGen φ gen i sel = mapGen φ gen1 i sel := by unfold mapGen; rw [he i sel h1 h2]
  rw [e]
  refine (mapGen_spec φ gen1 bonds hs i sel).trans ?_
  refine List.Perm.flatMap_left _ fun j hj => ?_
  refine List.Perm.map _ ?_
  have : (bonds i j).map φ = ((bonds i j).map fun b => b.r01).map ψ := by
    rw [List.map_map]
    exact List.map_congr_left fun b hb => hφ b (hd.dist i j b hb)
  dsimp only
  rw [this]
  exact (delivers_vecs hok hd i j h1 (h2 j hj)).map _

/-- The contributions of a complete evaluation in one process. -/
theorem trace_vecs {B : Type} (g : Geometry) (hok : g.Ok) (lo hi : ℝ) (gen : Gen Bond) (hgen : g.IsGen lo hi gen) (φ : Bond → B) (ψ : V3 → B)
    (hφ : ∀ b, b.distance = V3.norm b.r01 → φ b = ψ b.r01) (rule full : Bool) (use : ℕ → ℕ → Bool) (n : ℤ) :
    (basicTrace rule (mapGen φ gen) full use g.cnt n 1).Perm (specContribs (fun i j => (vecs g lo hi i j).map ψ) full use g.cnt) := by
  let gen1 : Gen B := fun i sel => if i < g.cnt ∧ ∀ j ∈ sel, j < g.cnt then mapGen φ gen i sel else
    sel.flatMap fun j => ((vecs g lo hi i j).map ψ).map fun b => (j, b)
  have hs : GenSpec gen1 fun i j => (vecs g lo hi i j).map ψ := by
    intro i sel
    by_cases h : i < g.cnt ∧ ∀ j ∈ sel, j < g.cnt
    · simp only [gen1, if_pos h]
      exact gen_vecs g hok lo hi gen hgen φ ψ hφ i h.1 sel h.2
    · simp only [gen1, if_neg h]
      exact List.Perm.refl _
  have e : basicTrace rule (mapGen φ gen) full use g.cnt n 1 = basicTrace rule gen1 full use g.cnt n 1 := by
    unfold basicTrace
    simp only
    rw [PDFCache.basicLoop_congr (mapGen φ gen) gen1 _ _ _ _ _ _ ?_ _ (fun i hi => List.mem_range.1 hi)]
    intro i sel h1 h2
    exact (if_pos ⟨h1, h2⟩).symm
  rw [e]
  exact basic_serial_spec rule _ _ hs full use g.cnt n

end Verif.Geo
