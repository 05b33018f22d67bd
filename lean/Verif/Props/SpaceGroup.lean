import Verif.Props.PDFCrystal
/-
C61, C62: crystals whose operations form a space group.
-/
set_option linter.unusedSectionVars false
namespace Verif.PDFCache
open Verif.PDFGrid Verif.Eval Verif.R3 Verif.BondGen Verif.Lattice Verif.Points Verif.Periodic
open Verif.Crystal (Crys CrystalBonds equivPos SymOp ModClose SmallEps symOf)

/-! ### Specification -/

/-- The operation `op` applied to fractional coordinates. -/
def act (op : SymOp) (u : V3) : V3 := V3.add (M3.mulVec op.R u) op.t

/-- The fractional coordinates of atom `i` of the asymmetric unit. -/
noncomputable def fracPos (c : Crys) (i : Nat) : V3 := c.L.fractional ((c.atoms.map Crystal.Site.xyz).getD i V3.zero)

/-- The operations form a space group of the lattice, one operation for each coset of the lattice translations: they
map the lattice to itself, keep lengths, and modulo lattice translations are closed under composition and inversion. -/
structure SpaceGroup (L : Lat) (ops : List SymOp) : Prop where
  integral : ∀ op ∈ ops, ∀ t : ℤ × ℤ × ℤ, ∃ t', M3.mulVec op.R (tripVec t) = tripVec t'
  isometric : ∀ op ∈ ops, ∀ v, L.norm (M3.mulVec op.R v) = L.norm v
  closed : ∀ a ∈ ops, ∀ b ∈ ops, ∃ e ∈ ops, ∃ k, ∀ u, act a (act b u) = V3.add (act e u) (tripVec k)
  inverse : ∀ a ∈ ops, ∃ b ∈ ops, ∃ k k', (∀ u, act b (act a u) = V3.add u (tripVec k)) ∧
    ∀ u, act a (act b u) = V3.add u (tripVec k')

/-- Images of an atom that coincide within the precision coincide exactly modulo the lattice, and no image lies within
the round-off tolerance below a cell face. -/
structure ExactCrystal (c : Crys) : Prop where
  lat : Reachable c.L
  eps : 0 ≤ c.eps
  small : SmallEps c.L c.eps
  ops : c.ops ≠ []
  exact : ∀ i < c.atoms.length, ∀ o ∈ c.ops, ∀ o' ∈ c.ops, ModClose c.L c.eps (act o (fracPos c i)) (act o' (fracPos c i)) →
    ∃ k, act o (fracPos c i) = V3.add (act o' (fracPos c i)) (tripVec k)
  clear : ∀ i < c.atoms.length, ∀ op ∈ c.ops, ∀ n : ℤ,
    ∀ t ∈ [(act op (fracPos c i)).x, (act op (fracPos c i)).y, (act op (fracPos c i)).z],
    ¬ ((n : ℝ) - sqrtEps ≤ t ∧ t < n)

/-! ### The orbits -/

theorem tripVec_add (s t : ℤ × ℤ × ℤ) : tripVec (s + t) = V3.add (tripVec s) (tripVec t) := by
  ext <;> simp [tripVec, V3.add]

theorem tripVec_neg (s : ℤ × ℤ × ℤ) : tripVec (-s) = V3.sub V3.zero (tripVec s) := by
  ext <;> simp [tripVec, V3.sub, V3.zero]

theorem add_assoc3 (u v w : V3) : V3.add (V3.add u v) w = V3.add u (V3.add v w) := by
  ext <;> simp [V3.add] <;> ring

theorem add_neg3 (u : V3) (t : ℤ × ℤ × ℤ) : V3.add (V3.add u (tripVec t)) (tripVec (-t)) = u := by
  ext <;> simp [V3.add, tripVec]

theorem mulVec_add (m : M3) (u v : V3) : M3.mulVec m (V3.add u v) = V3.add (M3.mulVec m u) (M3.mulVec m v) := by
  ext <;> simp [M3.mulVec, V3.add, V3.dot] <;> ring

theorem mulVec_sub (m : M3) (u v : V3) : M3.mulVec m (V3.sub u v) = V3.sub (M3.mulVec m u) (M3.mulVec m v) := by
  ext <;> simp [M3.mulVec, V3.sub, V3.dot] <;> ring

/-- Operations commute with lattice translations up to a lattice translation. -/
theorem act_shift {L : Lat} {ops : List SymOp} (h : SpaceGroup L ops) (a : SymOp) (ha : a ∈ ops) (t : ℤ × ℤ × ℤ) :
    ∃ t', ∀ u, act a (V3.add u (tripVec t)) = V3.add (act a u) (tripVec t') := by
  obtain ⟨t', ht⟩ := h.integral a ha t
  refine ⟨t', fun u => ?_⟩
  unfold act
  rw [mulVec_add, ht]
  ext <;> simp [V3.add] <;> ring

theorem wrap_exact (v : V3) (h : ∀ n : ℤ, ∀ t ∈ [v.x, v.y, v.z], ¬ ((n : ℝ) - sqrtEps ≤ t ∧ t < n)) :
    ∃ k, ucvFractional v = V3.add v (tripVec k) := by
  obtain ⟨i, j, k, -, -, -, e⟩ := ucvFractional_shift v
  refine ⟨(-i, -j, -k), ?_⟩
  rw [e h]
  ext <;> simp [V3.add, tripVec] <;> ring

theorem cart_add (L : Lat) (u v : V3) : L.cartesian (V3.add u v) = V3.add (L.cartesian u) (L.cartesian v) := by
  unfold Lat.cartesian; rw [M3.vecMul_add]

/-- The sites of an orbit: images under a sublist of the operations that begins with the first one, moved into the
cell, with tensors transformed by the same operations. -/
theorem sites_exact (c : Crys) (hc : ExactCrystal c) (i : Nat) (hi : i < c.atoms.length) :
    ∃ (reps : List SymOp) (w : SymOp → ℤ × ℤ × ℤ), reps.Sublist c.ops ∧ reps.head? = c.ops.head? ∧
      (reps.map fun op => act op (fracPos c i)).Pairwise (fun u v => ¬ ModClose c.L c.eps u v) ∧
      (∀ op ∈ c.ops, ∃ r ∈ reps, ModClose c.L c.eps (act r (fracPos c i)) (act op (fracPos c i))) ∧
      (c.atoms.map (symOf c.L c.eps c.ops)).getD i [] = reps.map fun op =>
        ⟨c.L.cartesian (V3.add (act op (fracPos c i)) (tripVec (w op))),
         c.L.cartesianMatrix (M3.mul op.R (M3.mul (c.L.fractionalMatrix
          ((c.atoms.map Crystal.Site.uij).getD i M3.one)) (M3.trans op.R)))⟩ := by
  have hu : ∀ op : SymOp, Crystal.opImage (Crystal.toFractional c.L c.atoms[i]) op = act op (fracPos c i) := by
    intro op
    have e : (c.atoms.map Crystal.Site.xyz).getD i V3.zero = c.atoms[i].xyz := by
      rw [List.getD_eq_getElem _ _ (by simpa using hi), List.getElem_map]
    unfold fracPos
    rw [e]
    rfl
  have hw : ∀ op, ∃ k, op ∈ c.ops → ucvFractional (act op (fracPos c i)) = V3.add (act op (fracPos c i)) (tripVec k) := by
    intro op
    by_cases h : op ∈ c.ops
    · obtain ⟨k, hk⟩ := wrap_exact _ (hc.clear i hi op h)
      exact ⟨k, fun _ => hk⟩
    · exact ⟨0, fun h' => absurd h' h⟩
  choose w hw using hw
  obtain ⟨reps, r1, r0, r2, r3, r4⟩ := Crystal.expand_exact_sites c.L hc.lat c.eps hc.eps hc.small c.ops hc.ops
    (Crystal.toFractional c.L c.atoms[i]) (by
      intro o ho o' ho' hcl
      rw [hu, hu] at hcl ⊢
      obtain ⟨k, hk⟩ := hc.exact i hi o ho o' ho' hcl
      rw [hk]
      exact ucvFractional_periodic _ k.1 k.2.1 k.2.2)
  have hfun : (Crystal.opImage (Crystal.toFractional c.L c.atoms[i])) = fun op => act op (fracPos c i) := funext hu
  rw [hfun] at r2 r3 r4
  refine ⟨reps, w, r1, r0, r2, r3, ?_⟩
  rw [List.getD_eq_getElem _ _ (by simpa using hi), List.getElem_map]
  unfold symOf
  rw [r4, List.map_map]
  refine List.map_congr_left fun op hop => ?_
  have e : (c.atoms.map Crystal.Site.uij).getD i M3.one = c.atoms[i].uij := by
    rw [List.getD_eq_getElem _ _ (by simpa using hi), List.getElem_map]
  rw [e, Function.comp_apply, hw op (r1.subset hop)]
  rfl

/-- The points of an orbit are the images of the atom under all operations and lattice translations. -/
theorem orbit_eq (c : Crys) (hc : ExactCrystal c) (i : Nat) (hi : i < c.atoms.length) (x : V3) :
    x ∈ Orbit c.L (equivPos c i) ↔
      ∃ op ∈ c.ops, ∃ k, x = c.L.cartesian (V3.add (act op (fracPos c i)) (tripVec k)) := by
  obtain ⟨reps, w, r1, r0, r2, r3, r4⟩ := sites_exact c hc i hi
  have hE : equivPos c i = reps.map fun op => c.L.cartesian (V3.add (act op (fracPos c i)) (tripVec (w op))) := by
    unfold equivPos
    rw [r4, List.map_map]
    rfl
  unfold Orbit
  rw [hE, Set.mem_ofPred_eq]
  constructor
  · rintro ⟨q, hq, t, rfl⟩
    obtain ⟨op, hop, rfl⟩ := List.mem_map.1 hq
    refine ⟨op, r1.subset hop, w op + t, ?_⟩
    unfold moved shift
    rw [tripVec_add, ← add_assoc3, cart_add c.L (V3.add _ _)]
  · rintro ⟨op, hop, k, rfl⟩
    obtain ⟨r, hr, hcl⟩ := r3 op hop
    obtain ⟨k', hk'⟩ := hc.exact i hi r (r1.subset hr) op hop hcl
    refine ⟨_, List.mem_map.2 ⟨r, hr, rfl⟩, -(w r) + -k' + k, ?_⟩
    unfold moved shift
    rw [hk', ← cart_add]
    congr 1
    ext <;> simp [V3.add, tripVec] <;> ring

theorem equivPos_apart (c : Crys) (hc : ExactCrystal c) (i : Nat) (hi : i < c.atoms.length) : Apart c.L (equivPos c i) := by
  obtain ⟨reps, w, r1, r0, r2, r3, r4⟩ := sites_exact c hc i hi
  have hE : equivPos c i = reps.map fun op => c.L.cartesian (V3.add (act op (fracPos c i)) (tripVec (w op))) := by
    unfold equivPos
    rw [r4, List.map_map]
    rfl
  unfold Apart
  rw [hE, List.pairwise_map]
  rw [List.pairwise_map] at r2
  refine r2.imp ?_
  intro a b hab t he
  apply hab
  refine ⟨-(w a) + w b + t, ?_⟩
  have e : c.L.cartesian (act a (fracPos c i)) =
      V3.add (c.L.cartesian (act b (fracPos c i))) (c.L.cartesian (tripVec (-(w a) + w b + t))) := by
    unfold moved shift at he
    rw [cart_add, cart_add] at he
    rw [tripVec_add, tripVec_add, cart_add, cart_add]
    have hneg : c.L.cartesian (tripVec (-(w a))) = V3.sub V3.zero (c.L.cartesian (tripVec (w a))) := by
      ext <;> simp [Lat.cartesian, tripVec, V3.sub, V3.zero, M3.vecMul, V3.dot] <;> ring
    rw [hneg]
    have h1 := congrArg V3.x he
    have h2 := congrArg V3.y he
    have h3 := congrArg V3.z he
    simp only [V3.add] at h1 h2 h3
    ext <;> simp only [V3.add, V3.sub, V3.zero] <;> linarith
  rw [e]
  unfold V3.distance
  have : ∀ v : V3, V3.norm (V3.sub v v) = 0 := by
    intro v
    have : V3.sub v v = V3.zero := by ext <;> simp [V3.sub, V3.zero]
    rw [this, V3.norm_zero]
  rw [this]
  exact hc.eps

/-! ### Symmetry maps -/

/-- The operation `a` followed by the lattice translation `k`, in Cartesian coordinates. -/
noncomputable def move (L : Lat) (a : SymOp) (k : ℤ × ℤ × ℤ) (x : V3) : V3 :=
  L.cartesian (V3.add (act a (L.fractional x)) (tripVec k))

theorem move_cart (L : Lat) (hL : Reachable L) (a : SymOp) (k : ℤ × ℤ × ℤ) (u : V3) :
    move L a k (L.cartesian u) = L.cartesian (V3.add (act a u) (tripVec k)) := by
  unfold move
  rw [(cartesian_fractional L hL u).2]

theorem fractional_sub (L : Lat) (u v : V3) : L.fractional (V3.sub u v) = V3.sub (L.fractional u) (L.fractional v) := by
  unfold Lat.fractional; rw [M3.vecMul_sub]

/-- The rotation part in Cartesian coordinates. -/
noncomputable def rotC (L : Lat) (a : SymOp) (s : V3) : V3 := L.cartesian (M3.mulVec a.R (L.fractional s))

theorem move_sub (L : Lat) (a : SymOp) (k : ℤ × ℤ × ℤ) (x y : V3) :
    V3.sub (move L a k x) (move L a k y) = rotC L a (V3.sub x y) := by
  unfold move rotC act Lat.cartesian
  rw [← M3.vecMul_sub, fractional_sub, mulVec_sub]
  congr 1
  ext <;> simp [V3.sub, V3.add]

theorem rotC_norm {L : Lat} {ops : List SymOp} (hL : Reachable L) (h : SpaceGroup L ops) (a : SymOp) (ha : a ∈ ops) (s : V3) :
    V3.norm (rotC L a s) = V3.norm s := by
  unfold rotC
  rw [← norm_cartesian L (good_of_reachable L hL), h.isometric a ha, norm_cartesian L (good_of_reachable L hL),
    (cartesian_fractional L hL s).1]

theorem move_distance {L : Lat} {ops : List SymOp} (hL : Reachable L) (h : SpaceGroup L ops) (a : SymOp) (ha : a ∈ ops)
    (k : ℤ × ℤ × ℤ) (x y : V3) : V3.distance (move L a k x) (move L a k y) = V3.distance x y := by
  unfold V3.distance
  rw [move_sub, rotC_norm hL h a ha]

theorem move_orbit (c : Crys) (hc : ExactCrystal c) (h : SpaceGroup c.L c.ops) (a : SymOp) (ha : a ∈ c.ops) (k : ℤ × ℤ × ℤ)
    (j : Nat) (hj : j < c.atoms.length) (x : V3) (hx : x ∈ Orbit c.L (equivPos c j)) :
    move c.L a k x ∈ Orbit c.L (equivPos c j) := by
  rw [orbit_eq c hc j hj] at hx ⊢
  obtain ⟨op, hop, t, rfl⟩ := hx
  obtain ⟨e, he, k1, h1⟩ := h.closed a ha op hop
  obtain ⟨t', h2⟩ := act_shift h a ha t
  refine ⟨e, he, k1 + t' + k, ?_⟩
  rw [move_cart c.L hc.lat, h2, h1]
  congr 1
  rw [tripVec_add, tripVec_add]
  ext <;> simp [V3.add] <;> ring

theorem move_bijOn (c : Crys) (hc : ExactCrystal c) (h : SpaceGroup c.L c.ops) (a : SymOp) (ha : a ∈ c.ops) (k : ℤ × ℤ × ℤ)
    (j : Nat) (hj : j < c.atoms.length) :
    Set.BijOn (move c.L a k) (Orbit c.L (equivPos c j)) (Orbit c.L (equivPos c j)) := by
  refine ⟨fun x hx => move_orbit c hc h a ha k j hj x hx, ?_, ?_⟩
  · intro x _ y _ hxy
    have := move_distance hc.lat h a ha k x y
    rw [hxy] at this
    have hz : ∀ v : V3, V3.distance v v = 0 := by
      intro v
      unfold V3.distance
      have : V3.sub v v = V3.zero := by ext <;> simp [V3.sub, V3.zero]
      rw [this, V3.norm_zero]
    rw [hz] at this
    have h0 := V3.norm_eq_zero _ this.symm
    have h1 := congrArg V3.x h0
    have h2 := congrArg V3.y h0
    have h3 := congrArg V3.z h0
    simp only [V3.sub, V3.zero] at h1 h2 h3
    ext <;> linarith
  · intro y hy
    obtain ⟨b, hb, k1, k2, -, h2⟩ := h.inverse a ha
    have hy' := hy
    rw [orbit_eq c hc j hj] at hy'
    obtain ⟨op, hop, t, rfl⟩ := hy'
    refine ⟨move c.L b 0 (c.L.cartesian (V3.add (V3.add (act op (fracPos c j)) (tripVec t)) (tripVec (-(k2 + k))))), ?_, ?_⟩
    · apply move_orbit c hc h b hb 0 j hj
      rw [orbit_eq c hc j hj]
      exact ⟨op, hop, t + -(k2 + k), by rw [tripVec_add, add_assoc3]⟩
    · rw [move_cart c.L hc.lat, move_cart c.L hc.lat]
      have e0 : ∀ v : V3, V3.add v (tripVec 0) = v := by intro v; ext <;> simp [V3.add, tripVec]
      rw [e0, h2]
      congr 1
      ext <;> simp [V3.add, tripVec] <;> ring

/-- Any two points of an orbit are related by an operation and a lattice translation. -/
theorem move_trans (c : Crys) (hc : ExactCrystal c) (h : SpaceGroup c.L c.ops) (i : Nat) (hi : i < c.atoms.length)
    (x y : V3) (hx : x ∈ Orbit c.L (equivPos c i)) (hy : y ∈ Orbit c.L (equivPos c i)) :
    ∃ a ∈ c.ops, ∃ k, move c.L a k x = y := by
  rw [orbit_eq c hc i hi] at hx hy
  obtain ⟨o, ho, s, rfl⟩ := hx
  obtain ⟨o', ho', t, rfl⟩ := hy
  obtain ⟨b, hb, k1, -, h1, -⟩ := h.inverse o ho
  obtain ⟨e, he, k2, h2⟩ := h.closed o' ho' b hb
  obtain ⟨s1, h3⟩ := act_shift h b hb s
  obtain ⟨s2, h4⟩ := act_shift h o' ho' (k1 + s1)
  refine ⟨e, he, -s2 + k2 + t, ?_⟩
  rw [move_cart c.L hc.lat]
  congr 1
  have h5 := h2 (V3.add (act o (fracPos c i)) (tripVec s))
  rw [h3, h1, add_assoc3, ← tripVec_add, h4] at h5
  have e1 := congrArg V3.x h5
  have e2 := congrArg V3.y h5
  have e3 := congrArg V3.z h5
  simp only [V3.add] at e1 e2 e3
  rw [tripVec_add, tripVec_add, tripVec_neg]
  ext <;> simp only [V3.add, V3.sub, V3.zero] <;> linarith

/-- Lattice translations are among the symmetry maps. -/
theorem move_identity (c : Crys) (hc : ExactCrystal c) (h : SpaceGroup c.L c.ops) (t : ℤ × ℤ × ℤ) :
    ∃ a ∈ c.ops, ∃ k, ∀ x, move c.L a k x = moved c.L x t := by
  obtain ⟨o, ho⟩ := List.exists_mem_of_ne_nil _ hc.ops
  obtain ⟨b, hb, k1, -, h1, -⟩ := h.inverse o ho
  obtain ⟨e, he, k2, h2⟩ := h.closed b hb o ho
  refine ⟨e, he, k2 + -k1 + t, fun x => ?_⟩
  have h5 := h2 (c.L.fractional x)
  rw [h1] at h5
  unfold move moved shift
  have e0 : V3.add (act e (c.L.fractional x)) (tripVec (k2 + -k1 + t)) = V3.add (c.L.fractional x) (tripVec t) := by
    have e1 := congrArg V3.x h5
    have e2 := congrArg V3.y h5
    have e3 := congrArg V3.z h5
    simp only [V3.add] at e1 e2 e3
    rw [tripVec_add, tripVec_add, tripVec_neg]
    ext <;> simp only [V3.add, V3.sub, V3.zero] <;> linarith
  rw [e0, cart_add, (cartesian_fractional c.L hc.lat x).1]

/-- Widths that are kept by the operations make the crystal a symmetric arrangement. -/
theorem spaceGroup_sym (c : Crys) (hc : ExactCrystal c) (h : SpaceGroup c.L c.ops) (W : Nat → Nat → V3 → V3 → ℝ)
    (hinv : ∀ a ∈ c.ops, ∀ k, ∀ i < c.atoms.length, ∀ j < c.atoms.length, ∀ p ∈ Orbit c.L (equivPos c i),
      ∀ x ∈ Orbit c.L (equivPos c j), W i j (move c.L a k p) (move c.L a k x) = W i j p x)
    (heven : ∀ i < c.atoms.length, ∀ j < c.atoms.length, ∀ p ∈ Orbit c.L (equivPos c i),
      ∀ x ∈ Orbit c.L (equivPos c j), W i j p x = W j i x p) :
    CrystalSym c.L c.atoms.length (equivPos c) W where
  ne i hi := equivPos_ne c hc.eps i hi
  apart i hi := equivPos_apart c hc i hi
  even := heven
  trans := by
    intro i hi p hp
    have h0 := self_mem_orbit c.L _ _ (headD_mem _ V3.zero (equivPos_ne c hc.eps i hi))
    obtain ⟨a, ha, k, hk⟩ := move_trans c hc h i hi _ p h0 (self_mem_orbit c.L _ p hp)
    refine ⟨move c.L a k, hk, fun x y => move_distance hc.lat h a ha k x y, fun j hj =>
      ⟨move_bijOn c hc h a ha k j hj, fun x hx => ?_⟩⟩
    rw [← hinv a ha k i hi j hj _ h0 x hx, hk]
  shift := by
    intro i hi j hj p hp x hx t
    obtain ⟨a, ha, k, hk⟩ := move_identity c hc h t
    rw [← hk, ← hk]
    exact hinv a ha k i hi j hj p hp x hx

end Verif.PDFCache
