import Verif.Model.CrystalMsd
import Verif.Props.SpaceGroup
/-
C62: displacement tensors of equivalent atoms, and the RDF of crystals with anisotropic atoms.
-/
set_option linter.unusedSectionVars false
namespace Verif.PDFCache
open Verif.PDFGrid Verif.Eval Verif.R3 Verif.BondGen Verif.Lattice Verif.Points Verif.Periodic
open Verif.Crystal (Crys CrystalBonds equivPos SymOp ModClose SmallEps symOf)
open Verif.Peak (meanSquareDisplacement)

/-! ### Tensors under operations -/

/-- The quadratic form of a tensor. -/
def quad (m : M3) (v : V3) : ℝ := V3.dot v (M3.mulVec m v)

theorem quad_conj (a m : M3) (v : V3) : quad (M3.mul (M3.trans a) (M3.mul m a)) v = quad m (M3.mulVec a v) := by
  simp only [quad, M3.mul, M3.trans, M3.mulVec, M3.vecMul, V3.dot, M3.c0, M3.c1, M3.c2]; ring

theorem mulVec_mul (a b : M3) (v : V3) : M3.mulVec (M3.mul a b) v = M3.mulVec a (M3.mulVec b v) := by
  ext <;> simp only [M3.mul, M3.mulVec, M3.vecMul, V3.dot, M3.c0, M3.c1, M3.c2] <;> ring

/-- The diagonal matrix of the reciprocal lengths. -/
def recDiag (L : Lat) : M3 := ⟨⟨L.ar, 0, 0⟩, ⟨0, L.br, 0⟩, ⟨0, 0, L.cr⟩⟩

/-- The rotation does not mix axes with different reciprocal lengths. -/
def Balanced (L : Lat) (a : SymOp) : Prop := M3.mul (recDiag L) a.R = M3.mul a.R (recDiag L)

theorem dot_of_isometric {L : Lat} {ops : List SymOp} (hL : Reachable L) (h : SpaceGroup L ops) (a : SymOp) (ha : a ∈ ops)
    (u v : V3) : L.dot (M3.mulVec a.R u) (M3.mulVec a.R v) = L.dot u v := by
  have hn : ∀ w, L.dot (M3.mulVec a.R w) (M3.mulVec a.R w) = L.dot w w := by
    intro w
    have h1 := h.isometric a ha w
    have hp : ∀ w, 0 ≤ L.dot w w := fun w => by
      rw [dot_cartesian L (good_of_reachable L hL)]; exact V3.dot_self_nonneg _
    unfold Lat.norm at h1
    rw [← Real.sq_sqrt (hp (M3.mulVec a.R w)), h1, Real.sq_sqrt (hp w)]
  have h1 := hn (V3.add u v)
  rw [mulVec_add] at h1
  have h2 := hn u
  have h3 := hn v
  have pol : ∀ x y : V3, L.dot (V3.add x y) (V3.add x y) = L.dot x x + 2 * L.dot x y + L.dot y y := by
    intro x y
    unfold Lat.dot V3.add
    ring
  rw [pol, pol] at h1
  linarith

/-- The normalised base turns with the operation. -/
theorem normbase_rot {L : Lat} {ops : List SymOp} (hL : Reachable L) (h : SpaceGroup L ops) (a : SymOp) (ha : a ∈ ops)
    (hb : Balanced L a) (s : V3) :
    M3.mulVec (M3.trans a.R) (M3.mulVec L.normbase (rotC L a s)) = M3.mulVec L.normbase s := by
  have hG := good_of_reachable L hL
  have hN : ∀ v, M3.mulVec L.normbase (L.cartesian v) =
      ⟨L.ar * L.dot ⟨1, 0, 0⟩ v, L.br * L.dot ⟨0, 1, 0⟩ v, L.cr * L.dot ⟨0, 0, 1⟩ v⟩ := by
    intro v
    rw [hG.norm_eq, dot_cartesian L hG, dot_cartesian L hG, dot_cartesian L hG]
    unfold Lat.cartesian
    ext <;> simp only [M3.mulVec, M3.vecMul, V3.dot, V3.smul, M3.c0, M3.c1, M3.c2] <;> ring
  have hs : L.cartesian (L.fractional s) = s := (cartesian_fractional L hL s).1
  have hd := dot_of_isometric hL h a ha
  unfold rotC
  generalize L.fractional s = f at *
  rw [← hs, hN, hN]
  have e1 : ∀ w, L.dot (M3.mulVec a.R ⟨1, 0, 0⟩) w =
      a.R.r0.x * L.dot ⟨1, 0, 0⟩ w + a.R.r1.x * L.dot ⟨0, 1, 0⟩ w + a.R.r2.x * L.dot ⟨0, 0, 1⟩ w := by
    intro w; simp only [Lat.dot, M3.mulVec, V3.dot]; ring
  have e2 : ∀ w, L.dot (M3.mulVec a.R ⟨0, 1, 0⟩) w =
      a.R.r0.y * L.dot ⟨1, 0, 0⟩ w + a.R.r1.y * L.dot ⟨0, 1, 0⟩ w + a.R.r2.y * L.dot ⟨0, 0, 1⟩ w := by
    intro w; simp only [Lat.dot, M3.mulVec, V3.dot]; ring
  have e3 : ∀ w, L.dot (M3.mulVec a.R ⟨0, 0, 1⟩) w =
      a.R.r0.z * L.dot ⟨1, 0, 0⟩ w + a.R.r1.z * L.dot ⟨0, 1, 0⟩ w + a.R.r2.z * L.dot ⟨0, 0, 1⟩ w := by
    intro w; simp only [Lat.dot, M3.mulVec, V3.dot]; ring
  have d1 := hd ⟨1, 0, 0⟩ f
  have d2 := hd ⟨0, 1, 0⟩ f
  have d3 := hd ⟨0, 0, 1⟩ f
  rw [e1] at d1
  rw [e2] at d2
  rw [e3] at d3
  unfold Balanced recDiag at hb
  simp only [M3.mul, M3.vecMul, V3.dot, M3.c0, M3.c1, M3.c2, M3.mk.injEq, V3.mk.injEq] at hb
  obtain ⟨⟨q1, q2, q3⟩, ⟨q4, q5, q6⟩, q7, q8, q9⟩ := hb
  generalize L.dot ⟨1, 0, 0⟩ (M3.mulVec a.R f) = x1 at *
  generalize L.dot ⟨0, 1, 0⟩ (M3.mulVec a.R f) = x2 at *
  generalize L.dot ⟨0, 0, 1⟩ (M3.mulVec a.R f) = x3 at *
  ext <;> simp only [M3.mulVec, M3.trans, V3.dot, M3.c0, M3.c1, M3.c2]
  · linear_combination L.ar * d1 + x1 * q1 + x2 * q4 + x3 * q7
  · linear_combination L.br * d2 + x1 * q2 + x2 * q5 + x3 * q8
  · linear_combination L.cr * d3 + x1 * q3 + x2 * q6 + x3 * q9

/-- The Cartesian tensor of the image of an atom with the tensor `U` (CrystalStructureAdapter.cpp:178-179 with the
conversions in :217 and :226). -/
noncomputable def imageTensor (L : Lat) (a : SymOp) (U : M3) : M3 :=
  L.cartesianMatrix (M3.mul a.R (M3.mul (L.fractionalMatrix U) (M3.trans a.R)))

theorem quad_image {L : Lat} {ops : List SymOp} (hL : Reachable L) (h : SpaceGroup L ops) (a : SymOp) (ha : a ∈ ops)
    (hb : Balanced L a) (U : M3) (s : V3) : quad (imageTensor L a U) (rotC L a s) = quad U s := by
  unfold imageTensor Lat.cartesianMatrix
  have e : M3.mul (M3.trans L.normbase) (M3.mul (M3.mul a.R (M3.mul (L.fractionalMatrix U) (M3.trans a.R))) L.normbase) =
      M3.mul (M3.trans (M3.mul (M3.trans a.R) L.normbase)) (M3.mul (L.fractionalMatrix U) (M3.mul (M3.trans a.R) L.normbase)) := by
    rw [M3.trans_mul, M3.trans_trans, M3.mul_assoc, M3.mul_assoc, M3.mul_assoc]
  rw [e, quad_conj, mulVec_mul, normbase_rot hL h a ha hb, ← quad_conj]
  have := (cartesianMatrix_fractionalMatrix L hL U).2
  unfold Lat.cartesianMatrix at this
  rw [this]

/-- Symmetric tensor; a multiple of the identity for an isotropic atom. -/
def GoodTensor (U : M3) (an : Bool) : Prop := M3.trans U = U ∧ (an = false → ∃ u : ℝ, U = ⟨⟨u, 0, 0⟩, ⟨0, u, 0⟩, ⟨0, 0, u⟩⟩)

theorem msd_quad (U : M3) (hU : M3.trans U = U) (s : V3) : meanSquareDisplacement U s true = quad U s / V3.norm s ^ 2 := by
  simp only [M3.trans, M3.c0, M3.c1, M3.c2] at hU
  have h1 : U.r1.x = U.r0.y := congrArg (fun m : M3 => m.r0.y) hU
  have h2 : U.r2.x = U.r0.z := congrArg (fun m : M3 => m.r0.z) hU
  have h3 : U.r2.y = U.r1.z := congrArg (fun m : M3 => m.r1.z) hU
  unfold meanSquareDisplacement quad
  simp only [if_true, M3.mulVec, V3.dot]
  rw [h1, h2, h3]
  by_cases hn : V3.norm s = 0
  · rw [hn]; simp
  · field_simp
    ring

theorem image_symm (L : Lat) (a : SymOp) (U : M3) (hU : M3.trans U = U) : M3.trans (imageTensor L a U) = imageTensor L a U := by
  unfold imageTensor Lat.cartesianMatrix Lat.fractionalMatrix
  simp only [M3.trans_mul, M3.trans_trans, hU, M3.mul_assoc]

/-- **C62**. The mean square displacement of the image of an atom along the rotated direction is that of the atom along
the original direction, for operations that do not mix axes of different reciprocal lengths. -/
theorem image_msd {L : Lat} {ops : List SymOp} (hL : Reachable L) (h : SpaceGroup L ops) (a : SymOp) (ha : a ∈ ops)
    (hb : Balanced L a) (U : M3) (an : Bool) (hU : GoodTensor U an) (s : V3) :
    meanSquareDisplacement (imageTensor L a U) (rotC L a s) an = meanSquareDisplacement U s an := by
  cases an with
  | true =>
    rw [msd_quad _ (image_symm L a U hU.1), msd_quad U hU.1, quad_image hL h a ha hb, rotC_norm hL h a ha]
  | false =>
    obtain ⟨u, rfl⟩ := hU.2 rfl
    unfold meanSquareDisplacement
    simp only [Bool.false_eq_true, if_false]
    -- a direction that is rotated to the first axis
    obtain ⟨b, hb', k1, k2, -, h2⟩ := h.inverse a ha
    have hlin : ∀ v, M3.mulVec a.R (M3.mulVec b.R v) = v := by
      intro v
      have q1 := h2 v
      have q0 := h2 V3.zero
      unfold act at q1 q0
      rw [mulVec_add] at q1 q0
      have z : M3.mulVec b.R V3.zero = V3.zero := by ext <;> simp [M3.mulVec, V3.zero, V3.dot]
      have z' : M3.mulVec a.R V3.zero = V3.zero := by ext <;> simp [M3.mulVec, V3.zero, V3.dot]
      rw [z, z'] at q0
      have x1 := congrArg V3.x q1
      have x2 := congrArg V3.y q1
      have x3 := congrArg V3.z q1
      have y1 := congrArg V3.x q0
      have y2 := congrArg V3.y q0
      have y3 := congrArg V3.z q0
      simp only [V3.add, V3.zero] at x1 x2 x3 y1 y2 y3
      ext <;> linarith
    have hrot : rotC L a (L.cartesian (M3.mulVec b.R (L.fractional ⟨1, 0, 0⟩))) = ⟨1, 0, 0⟩ := by
      unfold rotC
      rw [(cartesian_fractional L hL _).2, hlin, (cartesian_fractional L hL _).1]
    have q := quad_image hL h a ha hb ⟨⟨u, 0, 0⟩, ⟨0, u, 0⟩, ⟨0, 0, u⟩⟩ (L.cartesian (M3.mulVec b.R (L.fractional ⟨1, 0, 0⟩)))
    have hn := rotC_norm hL h a ha (L.cartesian (M3.mulVec b.R (L.fractional ⟨1, 0, 0⟩)))
    rw [hrot] at q hn
    have hsq := congrArg (fun x => x * x) hn
    simp only [V3.norm_sq] at hsq
    generalize L.cartesian (M3.mulVec b.R (L.fractional ⟨1, 0, 0⟩)) = w at *
    generalize imageTensor L a ⟨⟨u, 0, 0⟩, ⟨0, u, 0⟩, ⟨0, 0, u⟩⟩ = T at *
    unfold quad at q
    simp only [M3.mulVec, V3.dot] at q hsq
    have e : u * (w.x * w.x + w.y * w.y + w.z * w.z) = u := by rw [← hsq]; ring
    linarith

/-! ### Tensors seen by the bond generator -/

open Classical in
/-- The tensor that the generator reports for a bond ending at a translation of the `k`-th equivalent atom of site `j` is
the tensor of that atom. -/
theorem ucartesian1_spec (c : Crys) (hc : ExactCrystal c) (j : Nat) (hj : j < c.atoms.length) (k : Nat) (q : Crystal.Site)
    (hk : ((c.atoms.map (symOf c.L c.eps c.ops)).getD j [])[k]? = some q) (t : ℤ × ℤ × ℤ) :
    c.ucartesian1 j (moved c.L q.xyz t) = q.uij := by
  have hap := equivPos_apart c hc j hj
  unfold Crys.ucartesian1
  unfold equivPos at hap
  generalize (c.atoms.map (symOf c.L c.eps c.ops)).getD j [] = l at *
  induction l generalizing k with
  | nil => simp at hk
  | cons a l ih =>
    unfold Apart at hap
    rw [List.map_cons, List.pairwise_cons] at hap
    cases k with
    | zero =>
      rw [List.getElem?_cons_zero, Option.some.injEq] at hk
      subst hk
      rw [List.find?_cons_of_pos]
      · rfl
      · exact decide_eq_true ⟨t, rfl⟩
    | succ k =>
      rw [List.getElem?_cons_succ] at hk
      rw [List.find?_cons_of_neg]
      · exact ih k hk hap.2
      · intro hd
        obtain ⟨t', ht'⟩ := of_decide_eq_true hd
        apply hap.1 q.xyz (List.mem_map.2 ⟨q, List.mem_of_getElem? hk, rfl⟩) (t + -t')
        rw [← moved_moved, ht']
        exact (by
          have := moved_moved c.L a.xyz t' (-t')
          rw [add_neg_cancel, moved_zero] at this
          exact this.symm)

/-- Every direction is the rotation of one. -/
theorem rotC_surj {L : Lat} {ops : List SymOp} (hL : Reachable L) (h : SpaceGroup L ops) (a : SymOp) (ha : a ∈ ops) (s : V3) :
    ∃ s', rotC L a s' = s := by
  obtain ⟨b, hb', k1, k2, -, h2⟩ := h.inverse a ha
  have hlin : ∀ v, M3.mulVec a.R (M3.mulVec b.R v) = v := by
    intro v
    have q1 := h2 v
    have q0 := h2 V3.zero
    unfold act at q1 q0
    rw [mulVec_add] at q1 q0
    have z : M3.mulVec b.R V3.zero = V3.zero := by ext <;> simp [M3.mulVec, V3.zero, V3.dot]
    have z' : M3.mulVec a.R V3.zero = V3.zero := by ext <;> simp [M3.mulVec, V3.zero, V3.dot]
    rw [z, z'] at q0
    have x1 := congrArg V3.x q1
    have x2 := congrArg V3.y q1
    have x3 := congrArg V3.z q1
    have y1 := congrArg V3.x q0
    have y2 := congrArg V3.y q0
    have y3 := congrArg V3.z q0
    simp only [V3.add, V3.zero] at x1 x2 x3 y1 y2 y3
    ext <;> linarith
  refine ⟨L.cartesian (M3.mulVec b.R (L.fractional s)), ?_⟩
  unfold rotC
  rw [(cartesian_fractional L hL _).2, hlin, (cartesian_fractional L hL _).1]

theorem rotC_neg (L : Lat) (a : SymOp) (s : V3) : rotC L a (V3.sub V3.zero s) = V3.sub V3.zero (rotC L a s) := by
  unfold rotC Lat.cartesian
  rw [fractional_sub, mulVec_sub, M3.vecMul_sub]
  congr 1
  ext <;> simp [Lat.fractional, M3.vecMul, M3.mulVec, V3.dot, V3.zero]

theorem norm_zero_sub (s : V3) : V3.norm (V3.sub V3.zero s) = V3.norm s := by
  unfold V3.norm
  congr 1
  simp [V3.dot, V3.sub, V3.zero]

theorem msd_neg (U : M3) (s : V3) (an : Bool) : meanSquareDisplacement U (V3.sub V3.zero s) an = meanSquareDisplacement U s an := by
  unfold meanSquareDisplacement
  rw [norm_zero_sub]
  cases an
  · rfl
  · simp only [if_true, V3.sub, V3.zero, zero_sub, neg_div]
    ring

/-! ### Specification -/

/-- `D i p s` is the mean square displacement in the direction `s` of the atom of site `i` at `p`: the atom of the
asymmetric unit has the displacements given by its tensor, and operations carry the displacements along with the atom. -/
def Displacements (c : Crys) (an : Nat → Bool) (D : Nat → V3 → V3 → ℝ) : Prop :=
  ∀ i < c.atoms.length, ∀ op ∈ c.ops, ∀ k s,
    D i (c.L.cartesian (V3.add (act op (fracPos c i)) (tripVec k))) (rotC c.L op s) =
      meanSquareDisplacement ((c.atoms.map Crystal.Site.uij).getD i M3.one) s (an i)

/-- The first operation is the identity up to a lattice translation. -/
def IdentityFirst (ops : List SymOp) : Prop := ∃ e ∈ ops.head?, ∃ k, ∀ u, act e u = V3.add u (tripVec k)

theorem identity_rot (L : Lat) (hL : Reachable L) (e : SymOp) (k : ℤ × ℤ × ℤ) (h : ∀ u, act e u = V3.add u (tripVec k)) (s : V3) :
    rotC L e s = s := by
  have : ∀ v, M3.mulVec e.R v = v := by
    intro v
    have q1 := h v
    have q0 := h V3.zero
    unfold act at q1 q0
    have z : M3.mulVec e.R V3.zero = V3.zero := by ext <;> simp [M3.mulVec, V3.zero, V3.dot]
    rw [z] at q0
    have x1 := congrArg V3.x q1
    have x2 := congrArg V3.y q1
    have x3 := congrArg V3.z q1
    have y1 := congrArg V3.x q0
    have y2 := congrArg V3.y q0
    have y3 := congrArg V3.z q0
    simp only [V3.add, V3.zero] at x1 x2 x3 y1 y2 y3
    ext <;> linarith
  unfold rotC
  rw [this, (cartesian_fractional L hL s).1]

/-- The displacements are even in the direction. -/
theorem displacements_even (c : Crys) (hc : ExactCrystal c) (h : SpaceGroup c.L c.ops) (an : Nat → Bool)
    (D : Nat → V3 → V3 → ℝ) (hD : Displacements c an D) (i : Nat) (hi : i < c.atoms.length) (p : V3)
    (hp : p ∈ Orbit c.L (equivPos c i)) (s : V3) : D i p (V3.sub V3.zero s) = D i p s := by
  rw [orbit_eq c hc i hi] at hp
  obtain ⟨op, hop, k, rfl⟩ := hp
  obtain ⟨s', rfl⟩ := rotC_surj hc.lat h op hop s
  rw [← rotC_neg, hD i hi op hop, hD i hi op hop, msd_neg]

/-- The displacements are carried along by operations and translations. -/
theorem displacements_move (c : Crys) (hc : ExactCrystal c) (h : SpaceGroup c.L c.ops) (an : Nat → Bool)
    (D : Nat → V3 → V3 → ℝ) (hD : Displacements c an D) (i : Nat) (hi : i < c.atoms.length) (p : V3)
    (hp : p ∈ Orbit c.L (equivPos c i)) (a : SymOp) (ha : a ∈ c.ops) (k : ℤ × ℤ × ℤ) (s : V3) :
    D i (move c.L a k p) (rotC c.L a s) = D i p s := by
  rw [orbit_eq c hc i hi] at hp
  obtain ⟨op, hop, t, rfl⟩ := hp
  obtain ⟨s', rfl⟩ := rotC_surj hc.lat h op hop s
  rw [hD i hi op hop]
  obtain ⟨e, he, k1, h1⟩ := h.closed a ha op hop
  obtain ⟨t', h2⟩ := act_shift h a ha t
  have hrot : rotC c.L a (rotC c.L op s') = rotC c.L e s' := by
    have hl : ∀ v, M3.mulVec a.R (M3.mulVec op.R v) = M3.mulVec e.R v := by
      intro v
      have q1 := h1 v
      have q0 := h1 V3.zero
      unfold act at q1 q0
      rw [mulVec_add] at q1 q0
      have z : ∀ m : M3, M3.mulVec m V3.zero = V3.zero := by intro m; ext <;> simp [M3.mulVec, V3.zero, V3.dot]
      rw [z, z, z] at q0
      have x1 := congrArg V3.x q1
      have x2 := congrArg V3.y q1
      have x3 := congrArg V3.z q1
      have y1 := congrArg V3.x q0
      have y2 := congrArg V3.y q0
      have y3 := congrArg V3.z q0
      simp only [V3.add, V3.zero] at x1 x2 x3 y1 y2 y3
      ext <;> linarith
    unfold rotC
    rw [(cartesian_fractional c.L hc.lat _).2, hl]
  have hpos : move c.L a k (c.L.cartesian (V3.add (act op (fracPos c i)) (tripVec t))) =
      c.L.cartesian (V3.add (act e (fracPos c i)) (tripVec (k1 + t' + k))) := by
    rw [move_cart c.L hc.lat, h2, h1]
    congr 1
    rw [tripVec_add, tripVec_add]
    ext <;> simp [V3.add] <;> ring
  rw [hrot, hpos, hD i hi e he]

/-- The tensor reported for the far end of a bond gives the displacements of the atom there. -/
theorem ucartesian1_msd (c : Crys) (hc : ExactCrystal c) (h : SpaceGroup c.L c.ops) (hbal : ∀ op ∈ c.ops, Balanced c.L op)
    (an : Nat → Bool)
    (hU : ∀ i < c.atoms.length, GoodTensor ((c.atoms.map Crystal.Site.uij).getD i M3.one) (an i))
    (D : Nat → V3 → V3 → ℝ) (hD : Displacements c an D) (j : Nat) (hj : j < c.atoms.length)
    (x : V3) (hx : x ∈ Orbit c.L (equivPos c j)) (s : V3) :
    meanSquareDisplacement (c.ucartesian1 j x) s (an j) = D j x s := by
  obtain ⟨reps, w, r1, -, -, -, r4⟩ := sites_exact c hc j hj
  obtain ⟨q, hq, t, rfl⟩ := hx
  unfold equivPos at hq
  obtain ⟨site, hs, rfl⟩ := List.mem_map.1 hq
  obtain ⟨k, hk⟩ := List.mem_iff_getElem?.1 hs
  rw [ucartesian1_spec c hc j hj k site hk t]
  rw [r4] at hs
  obtain ⟨op, hop, rfl⟩ := List.mem_map.1 hs
  obtain ⟨s', rfl⟩ := rotC_surj hc.lat h op (r1.subset hop) s
  have e : moved c.L (c.L.cartesian (V3.add (act op (fracPos c j)) (tripVec (w op)))) t =
      c.L.cartesian (V3.add (act op (fracPos c j)) (tripVec (w op + t))) := by
    unfold moved shift
    rw [tripVec_add, ← add_assoc3, cart_add c.L (V3.add _ _)]
  dsimp only
  rw [e, hD j hj op (r1.subset hop)]
  exact image_msd hc.lat h op (r1.subset hop) (hbal op (r1.subset hop)) _ _ (hU j hj) s'

/-- C62. The mean square displacement that the generator reports for a bond is the sum of the displacements of the two
atoms at its ends along the bond. -/
theorem crystal_msd (c : Crys) (hc : ExactCrystal c) (h : SpaceGroup c.L c.ops) (hbal : ∀ op ∈ c.ops, Balanced c.L op)
    (hid : IdentityFirst c.ops) (an : Nat → Bool)
    (hU : ∀ i < c.atoms.length, GoodTensor ((c.atoms.map Crystal.Site.uij).getD i M3.one) (an i))
    (D : Nat → V3 → V3 → ℝ) (hD : Displacements c an D) (i j : Nat) (hi : i < c.atoms.length) (hj : j < c.atoms.length)
    (x : V3) (hx : x ∈ Orbit c.L (equivPos c j)) :
    let p := (equivPos c i).headD V3.zero
    c.msd an i j (bondOf j p x) = D i p (V3.sub x p) + D j x (V3.sub x p) := by
  intro p
  have hfirst : ∀ s, meanSquareDisplacement (c.ucartesian0 i) s (an i) = D i p s := by
    intro s
    obtain ⟨e, he, k, hk⟩ := hid
    obtain ⟨reps, w, r1, r0, -, -, r4⟩ := sites_exact c hc i hi
    have hp : p = c.L.cartesian (V3.add (act e (fracPos c i)) (tripVec (w e))) := by
      change (equivPos c i).headD V3.zero = _
      unfold equivPos
      rw [r4]
      rw [← r0] at he
      cases reps with
      | nil => simp at he
      | cons a l =>
        rw [List.head?_cons, Option.mem_some_iff] at he
        subst he
        rfl
    have hmem : e ∈ c.ops := List.mem_of_mem_head? he
    have := hD i hi e hmem (w e) s
    rw [identity_rot c.L hc.lat e k hk, ← hp] at this
    exact this.symm
  have hsecond := ucartesian1_msd c hc h hbal an hU D hD j hj x hx
  unfold Crys.msd bondOf
  dsimp only
  rw [hfirst, hsecond]

/-- Exchanging the two ends reverses the bond. -/
theorem sub_zero_sub (x p : V3) : V3.sub p x = V3.sub V3.zero (V3.sub x p) := by
  ext <;> simp [V3.sub, V3.zero]

/-- Widths computed from the displacements of the two ends along the bond and the distance are kept by the operations. -/
theorem displacements_sym (c : Crys) (hc : ExactCrystal c) (h : SpaceGroup c.L c.ops) (an : Nat → Bool)
    (D : Nat → V3 → V3 → ℝ) (hD : Displacements c an D) (ω : ℝ → ℝ → ℝ) :
    CrystalSym c.L c.atoms.length (equivPos c)
      (fun i j p x => ω (D i p (V3.sub x p) + D j x (V3.sub x p)) (V3.distance x p)) := by
  refine spaceGroup_sym c hc h _ ?_ ?_
  · intro a ha k i hi j hj p hp x hx
    rw [move_sub, displacements_move c hc h an D hD i hi p hp a ha k, displacements_move c hc h an D hD j hj x hx a ha k,
      move_distance hc.lat h a ha]
  · intro i hi j hj p hp x hx
    rw [sub_zero_sub x p, displacements_even c hc h an D hD j hj x hx, displacements_even c hc h an D hD i hi p hp, add_comm,
      distance_comm x p]

open Classical in
/-- C62. `getRDF` after `eval` of a crystal with displacement tensors: the pair sum over all equivalent positions and all
lattice translations, each pair with the width for the displacements of its two atoms along the bond. -/
theorem rdf_tensor (lookup : String → ℝ) (m : Mask.State) (sites : List Site) (c : Crys) (hc : ExactCrystal c)
    (hG : SpaceGroup c.L c.ops) (hbal : ∀ op ∈ c.ops, Balanced c.L op) (hid : IdentityFirst c.ops)
    (an : Nat → Bool) (hU : ∀ i < c.atoms.length, GoodTensor ((c.atoms.map Crystal.Site.uij).getD i M3.one) (an i))
    (D : Nat → V3 → V3 → ℝ) (hD : Displacements c an D) (ω : ℝ → ℝ → ℝ) (hcnt : sites.length = c.atoms.length)
    (p : Par ℝ) (ripples tails : ℝ) (ok : Ok p ripples tails) (hfit : ripples + tails ≤ p.maxext) (pf : Prof ℝ)
    (hb : ∀ i j a x w, i < c.atoms.length → j < c.atoms.length → a ∈ equivPos c i → x ∈ Orbit c.L (equivPos c j) →
      w = ω (D i a (V3.sub x a) + D j x (V3.sub x a)) (V3.distance x a) → 1 / 2 ^ 26 < V3.norm (V3.sub x a) →
      -tails ≤ pf.lo w ∧ pf.hi w ≤ tails ∧ ∀ x, (x ≤ pf.lo w ∨ pf.hi w ≤ x) → pf.y x w = 0)
    (gen : Limits → Gen Bond)
    (hgen : IsCrystalGen c ((rlimits p ripples tails).clo * p.dr) ((rlimits p ripples tails).chi * p.dr)
      (gen (rlimits p ripples tails))) :
    let k := cacheOf lookup m.dflt m.inv sites
    let mask : Nat → Nat → Bool := fun i j => Mask.getPairMask m i j
    ∃ z, (evalGen p ripples tails pf (fun i j b => ω (c.msd an i j b) b.distance) k
          (fun i => ((equivPos c i).length : ℝ)) mask sites.length gen).getRDF k.rdfScale = some z ∧
      z.length = (rgrid p.rmin p.rmax p.dr).length ∧
      ∀ (s : Nat) (n : ℤ), (rgrid p.rmin p.rmax p.dr)[s]? = some ((n : ℝ) * p.dr) →
        ((rlimits p ripples tails).clo = 0 ∨ p.rmin - ripples + p.dr ≤ (n : ℝ) * p.dr) →
        z[s]? = some (crystalRDF pf.y c.atoms.length (factor lookup sites) mask c.L (equivPos c)
          (fun i j a x => ω (D i a (V3.sub x a) + D j x (V3.sub x a)) (V3.distance x a)) ((n : ℝ) * p.dr) /
          (atoms sites * fAverage lookup sites ^ 2)) := by
  intro k mask
  obtain ⟨z, z1, z2, z3⟩ := rdf_orbits lookup m sites c hc.lat hc.eps hc.ops hcnt p ripples tails ok hfit pf _
    (displacements_sym c hc hG an D hD ω) hb (fun i j b => ω (c.msd an i j b) b.distance)
    (fun i hi j hj x hx => by rw [crystal_msd c hc hG hbal hid an hU D hD i j hi hj x hx]; rfl) gen hgen
  exact ⟨z, z1, z2, fun s n h1 h2 => (z3 s n h1 h2).2⟩

/-- C61. The same for widths that depend only on the two sites, in either order, and the distance. -/
theorem rdf_crystal (lookup : String → ℝ) (m : Mask.State) (sites : List Site) (c : Crys) (hc : ExactCrystal c)
    (hG : SpaceGroup c.L c.ops) (ω : Nat → Nat → ℝ → ℝ) (hω : ∀ i j d, ω i j d = ω j i d)
    (hcnt : sites.length = c.atoms.length)
    (p : Par ℝ) (ripples tails : ℝ) (ok : Ok p ripples tails) (hfit : ripples + tails ≤ p.maxext) (pf : Prof ℝ)
    (hb : ∀ i j w d, i < c.atoms.length → j < c.atoms.length → w = ω i j d → 1 / 2 ^ 26 < d →
      -tails ≤ pf.lo w ∧ pf.hi w ≤ tails ∧ ∀ x, (x ≤ pf.lo w ∨ pf.hi w ≤ x) → pf.y x w = 0)
    (gen : Limits → Gen Bond)
    (hgen : IsCrystalGen c ((rlimits p ripples tails).clo * p.dr) ((rlimits p ripples tails).chi * p.dr)
      (gen (rlimits p ripples tails))) :
    let k := cacheOf lookup m.dflt m.inv sites
    let mask : Nat → Nat → Bool := fun i j => Mask.getPairMask m i j
    ∃ z, (evalGen p ripples tails pf (fun i j b => ω i j b.distance) k
          (fun i => ((equivPos c i).length : ℝ)) mask sites.length gen).getRDF k.rdfScale = some z ∧
      z.length = (rgrid p.rmin p.rmax p.dr).length ∧
      ∀ (s : Nat) (n : ℤ), (rgrid p.rmin p.rmax p.dr)[s]? = some ((n : ℝ) * p.dr) →
        ((rlimits p ripples tails).clo = 0 ∨ p.rmin - ripples + p.dr ≤ (n : ℝ) * p.dr) →
        z[s]? = some (crystalRDF pf.y c.atoms.length (factor lookup sites) mask c.L (equivPos c)
          (fun i j a x => ω i j (V3.distance x a)) ((n : ℝ) * p.dr) / (atoms sites * fAverage lookup sites ^ 2)) := by
  intro k mask
  have hS : CrystalSym c.L c.atoms.length (equivPos c) (fun i j a x => ω i j (V3.distance x a)) := by
    refine spaceGroup_sym c hc hG _ ?_ ?_
    · intro a ha k i hi j hj p hp x hx
      rw [move_distance hc.lat hG a ha]
    · intro i hi j hj p hp x hx
      rw [hω, distance_comm x p]
  obtain ⟨z, z1, z2, z3⟩ := rdf_orbits lookup m sites c hc.lat hc.eps hc.ops hcnt p ripples tails ok hfit pf _ hS
    (fun i j a x w hi hj _ _ hw hd => hb i j w _ hi hj hw hd) (fun i j b => ω i j b.distance)
    (fun i hi j hj x hx => rfl) gen hgen
  exact ⟨z, z1, z2, fun s n h1 h2 => (z3 s n h1 h2).2⟩

end Verif.PDFCache
