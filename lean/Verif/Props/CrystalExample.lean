import Verif.Props.CrystalTensor
/-
Cases that meet the hypotheses of C61 and C62, and the two ways in which tensors of equivalent atoms go wrong.
-/
set_option linter.unusedSectionVars false
namespace Verif.PDFCache
open Verif.PDFGrid Verif.Eval Verif.R3 Verif.BondGen Verif.Lattice Verif.Points Verif.Periodic
open Verif.Crystal (Crys CrystalBonds equivPos SymOp ModClose SmallEps symOf unitCubic unitCubic_reachable unitCubic_cart
  unitCubic_frac unitCubic_norm unitCubic_small)
open Verif.Peak (meanSquareDisplacement)

/-- The identity operation. -/
noncomputable def idOp : SymOp := ⟨M3.one, V3.zero⟩

theorem act_id (u : V3) : act idOp u = u := by
  ext <;> simp [act, idOp, M3.mulVec, M3.one, V3.dot, V3.add, V3.zero]

theorem add_trip_zero (u : V3) : V3.add u (tripVec 0) = u := by ext <;> simp [V3.add, tripVec]

/-- The identity and one involution without translation form a space group. -/
theorem pair_group (L : Lat) (R : M3) (ops : List SymOp) (hm : ∀ op, op ∈ ops ↔ op = idOp ∨ op = ⟨R, V3.zero⟩)
    (hint : ∀ t : ℤ × ℤ × ℤ, ∃ t', M3.mulVec R (tripVec t) = tripVec t')
    (hiso : ∀ v, L.norm (M3.mulVec R v) = L.norm v) (hsq : ∀ v, M3.mulVec R (M3.mulVec R v) = v) : SpaceGroup L ops := by
  have z : ∀ u : V3, act ⟨R, V3.zero⟩ u = M3.mulVec R u := by
    intro u; ext <;> simp [act, V3.add, V3.zero]
  have i1 : ∀ v, M3.mulVec idOp.R v = v := by
    intro v; ext <;> simp [idOp, M3.mulVec, M3.one, V3.dot]
  refine ⟨?_, ?_, ?_, ?_⟩
  · intro op hop t
    rcases (hm op).1 hop with rfl | rfl
    · exact ⟨t, i1 _⟩
    · exact hint t
  · intro op hop v
    rcases (hm op).1 hop with rfl | rfl
    · rw [i1]
    · exact hiso v
  · intro a ha b hb
    rcases (hm a).1 ha with rfl | rfl
    · exact ⟨b, hb, 0, fun u => by rw [act_id, add_trip_zero]⟩
    · rcases (hm b).1 hb with rfl | rfl
      · exact ⟨_, ha, 0, fun u => by rw [act_id, add_trip_zero]⟩
      · exact ⟨idOp, (hm _).2 (Or.inl rfl), 0, fun u => by rw [act_id, add_trip_zero, z, z, hsq]⟩
  · intro a ha
    refine ⟨a, ha, 0, 0, ?_⟩
    rcases (hm a).1 ha with rfl | rfl
    · exact ⟨fun u => by rw [act_id, act_id, add_trip_zero], fun u => by rw [act_id, act_id, add_trip_zero]⟩
    · exact ⟨fun u => by rw [z, z, hsq, add_trip_zero], fun u => by rw [z, z, hsq, add_trip_zero]⟩

/-- The mirror x → -x. -/
def mirror : M3 := ⟨⟨-1, 0, 0⟩, ⟨0, 1, 0⟩, ⟨0, 0, 1⟩⟩

theorem mirror_apply (v : V3) : M3.mulVec mirror v = ⟨-v.x, v.y, v.z⟩ := by
  ext <;> simp [mirror, M3.mulVec, V3.dot]

/-- One atom at x = 1/4 in a unit cubic cell with the operations `ops`. -/
noncomputable def exCrys (L0 : Lat) (ops : List SymOp) (U : M3) : Crys :=
  ⟨[⟨⟨1 / 4, 0, 0⟩, U⟩], unitCubic L0, ops, 5 / 10 ^ 5, false, []⟩

theorem no_half (x : ℝ) (hx : x = 1 / 2 ∨ x = -(1 / 2)) (k : ℤ) : ¬ |x - k| ≤ 1 / 4 := by
  intro hk
  rw [abs_le] at hk
  have b1 : (2 * k : ℝ) < 2 * x + 1 := by linarith
  have b2 : 2 * x - 1 < (2 * k : ℝ) := by linarith
  rcases hx with rfl | rfl
  · have c1 : (2 * k : ℝ) < 2 := by linarith
    have c2 : (0 : ℝ) < 2 * k := by linarith
    have d1 : 2 * k < 2 := by exact_mod_cast c1
    have d2 : 0 < 2 * k := by exact_mod_cast c2
    omega
  · have c1 : (2 * k : ℝ) < 0 := by linarith
    have c2 : (-2 : ℝ) < 2 * k := by linarith
    have d1 : 2 * k < 0 := by exact_mod_cast c1
    have d2 : -2 < 2 * k := by exact_mod_cast c2
    omega

theorem exCrys_frac (L0 : Lat) (ops : List SymOp) (U : M3) : fracPos (exCrys L0 ops U) 0 = ⟨1 / 4, 0, 0⟩ :=
  unitCubic_frac L0 _

/-- A group of the identity and the mirror, in any order, with the atom at x = 1/4. -/
theorem exCrys_exact (L0 : Lat) (ops : List SymOp) (U : M3)
    (hm : ∀ op, op ∈ ops ↔ op = idOp ∨ op = ⟨mirror, V3.zero⟩) : ExactCrystal (exCrys L0 ops U) := by
  have hne : ops ≠ [] := by
    intro h
    have := (hm idOp).2 (Or.inl rfl)
    rw [h] at this
    simp at this
  have a2 : act ⟨mirror, V3.zero⟩ ⟨1 / 4, 0, 0⟩ = ⟨-(1 / 4), 0, 0⟩ := by
    ext <;> simp [act, mirror_apply, V3.add, V3.zero]
  have hfar : ∀ x y : ℝ, (x - y = 1 / 2 ∨ x - y = -(1 / 2)) → ¬ ModClose (unitCubic L0) (5 / 10 ^ 5) ⟨x, 0, 0⟩ ⟨y, 0, 0⟩ := by
    rintro x y hxy ⟨k, hk⟩
    rw [unitCubic_cart, unitCubic_cart, unitCubic_cart] at hk
    have h1 := le_trans (V3.abs_x_le _) hk
    simp only [V3.sub, V3.add, tripVec] at h1
    apply no_half _ hxy k.1
    rw [show x - y - (k.1 : ℝ) = x - (y + k.1) by ring]
    linarith
  have hi : ∀ i, i < (exCrys L0 ops U).atoms.length → i = 0 := by
    intro i hi
    have : i < 1 := hi
    omega
  refine ⟨unitCubic_reachable L0, by change (0 : ℝ) ≤ 5 / 10 ^ 5; norm_num, unitCubic_small L0, hne, ?_, ?_⟩
  · intro i h o ho o' ho' hc
    rw [hi i h, exCrys_frac] at hc ⊢
    rcases (hm o).1 ho with rfl | rfl <;> rcases (hm o').1 ho' with rfl | rfl
    · exact ⟨0, (add_trip_zero _).symm⟩
    · rw [act_id, a2] at hc
      exact absurd hc (hfar _ _ (by norm_num))
    · rw [act_id, a2] at hc
      exact absurd hc (hfar _ _ (by norm_num))
    · exact ⟨0, (add_trip_zero _).symm⟩
  · intro i h op hop n t ht hn
    rw [hi i h, exCrys_frac] at ht
    have hs : sqrtEps = 1 / 2 ^ 26 := rfl
    rw [hs] at hn
    have key : t = 1 / 4 ∨ t = 0 ∨ t = -(1 / 4) := by
      rcases (hm op).1 hop with rfl | rfl
      · rw [act_id] at ht
        simp only [List.mem_cons, List.not_mem_nil, or_false] at ht
        tauto
      · rw [a2] at ht
        simp only [List.mem_cons, List.not_mem_nil, or_false] at ht
        tauto
    have b1 : (4 * n : ℝ) < 4 * t + 1 := by norm_num at hn ⊢; linarith [hn.1]
    have b2 : 4 * t < (4 * n : ℝ) := by linarith [hn.2]
    rcases key with rfl | rfl | rfl
    · have c1 : (4 * n : ℝ) < 2 := by linarith
      have c2 : (1 : ℝ) < 4 * n := by linarith
      have d1 : 4 * n < 2 := by exact_mod_cast c1
      have d2 : 1 < 4 * n := by exact_mod_cast c2
      omega
    · have c1 : (4 * n : ℝ) < 1 := by linarith
      have c2 : (0 : ℝ) < 4 * n := by linarith
      have d1 : 4 * n < 1 := by exact_mod_cast c1
      have d2 : 0 < 4 * n := by exact_mod_cast c2
      omega
    · have c1 : (4 * n : ℝ) < 0 := by linarith
      have c2 : (-1 : ℝ) < 4 * n := by linarith
      have d1 : 4 * n < 0 := by exact_mod_cast c1
      have d2 : -1 < 4 * n := by exact_mod_cast c2
      omega

theorem exCrys_group (L0 : Lat) (ops : List SymOp) (hm : ∀ op, op ∈ ops ↔ op = idOp ∨ op = ⟨mirror, V3.zero⟩) :
    SpaceGroup (unitCubic L0) ops := by
  refine pair_group _ mirror ops hm ?_ ?_ ?_
  · intro t
    exact ⟨(-t.1, t.2.1, t.2.2), by rw [mirror_apply]; ext <;> simp [tripVec]⟩
  · intro v
    rw [unitCubic_norm, unitCubic_norm, mirror_apply]
    unfold V3.norm V3.dot
    congr 1
    ring
  · intro v
    rw [mirror_apply, mirror_apply, neg_neg]

theorem exCrys_balanced (L0 : Lat) (ops : List SymOp) (hm : ∀ op, op ∈ ops ↔ op = idOp ∨ op = ⟨mirror, V3.zero⟩)
    (op : SymOp) (h : op ∈ ops) : Balanced (unitCubic L0) op := by
  unfold Balanced recDiag
  rcases (hm op).1 h with rfl | rfl
  · simp [M3.mul, idOp, M3.one, M3.vecMul, V3.dot, M3.c0, M3.c1, M3.c2]
  · simp [M3.mul, mirror, M3.vecMul, V3.dot, M3.c0, M3.c1, M3.c2]

open Classical in
/-- The displacements of the atom with the tensor `U` at x = 1/4 and of its mirror image. -/
noncomputable def exD62 (U : M3) (p s : V3) : ℝ :=
  if ∃ k : ℤ, p.x = 1 / 4 + k then meanSquareDisplacement U s true else meanSquareDisplacement U (M3.mulVec mirror s) true

theorem exCrys_displacements (L0 : Lat) (ops : List SymOp) (U : M3)
    (hm : ∀ op, op ∈ ops ↔ op = idOp ∨ op = ⟨mirror, V3.zero⟩) :
    Displacements (exCrys L0 ops U) (fun _ => true) (fun _ => exD62 U) := by
  intro i hi op hop k s
  have hi0 : i = 0 := by
    have : i < 1 := hi
    omega
  subst hi0
  rw [exCrys_frac]
  have hrot : ∀ op : SymOp, rotC (exCrys L0 ops U).L op s = M3.mulVec op.R s := by
    intro op
    unfold rotC
    change (unitCubic L0).cartesian (M3.mulVec op.R ((unitCubic L0).fractional s)) = _
    rw [unitCubic_cart, unitCubic_frac]
  have hcart : ∀ v, (exCrys L0 ops U).L.cartesian v = v := fun v => unitCubic_cart L0 v
  rw [hrot, hcart]
  change exD62 U _ _ = meanSquareDisplacement U s true
  unfold exD62
  rcases (hm op).1 hop with rfl | rfl
  · rw [act_id, if_pos ⟨k.1, by simp [V3.add, tripVec]⟩]
    congr 1
    ext <;> simp [idOp, M3.mulVec, M3.one, V3.dot]
  · have a2 : act ⟨mirror, V3.zero⟩ ⟨1 / 4, 0, 0⟩ = ⟨-(1 / 4), 0, 0⟩ := by
      ext <;> simp [act, mirror_apply, V3.add, V3.zero]
    rw [a2, if_neg]
    · rw [mirror_apply, mirror_apply, neg_neg]
    · rintro ⟨n, hn⟩
      simp only [V3.add, tripVec] at hn
      apply no_half (1 / 2) (Or.inl rfl) (k.1 - n)
      push_cast
      rw [show (1 / 2 : ℝ) - (k.1 - n) = 0 by linarith]
      norm_num

/-- The operations in the usual order. -/
noncomputable def mirrorOps : List SymOp := [idOp, ⟨mirror, V3.zero⟩]

theorem mem_mirrorOps (op : SymOp) : op ∈ mirrorOps ↔ op = idOp ∨ op = ⟨mirror, V3.zero⟩ := by simp [mirrorOps]

/-- The hypotheses of `rdf_tensor`, `rdf_crystal` and `crystal_msd` on the crystal are met by an atom with any symmetric
tensor. -/
example (L0 : Lat) (U : M3) (hU : M3.trans U = U) (lo hi : ℝ) :
    let c := exCrys L0 mirrorOps U
    ExactCrystal c ∧ SpaceGroup c.L c.ops ∧ (∀ op ∈ c.ops, Balanced c.L op) ∧ IdentityFirst c.ops ∧
      (∀ i < c.atoms.length, GoodTensor ((c.atoms.map Crystal.Site.uij).getD i M3.one) true) ∧
      (∃ D, Displacements c (fun _ => true) D) ∧ ∃ gen, IsCrystalGen c lo hi gen := by
  intro c
  refine ⟨exCrys_exact L0 _ U mem_mirrorOps, exCrys_group L0 _ mem_mirrorOps, exCrys_balanced L0 _ mem_mirrorOps,
    ⟨idOp, rfl, 0, fun u => by rw [act_id, add_trip_zero]⟩, ?_, ⟨_, exCrys_displacements L0 _ U mem_mirrorOps⟩,
    crystalGen_exists c lo hi⟩
  intro i hi
  have hi0 : i = 0 := by
    have : i < 1 := hi
    omega
  subst hi0
  exact ⟨hU, fun h => by cases h⟩

/-- C62 fails when the first operation is not the identity: the generator places the anchor at the image under the first
operation but uses the tensor of the untransformed atom.  The operations, precision and positions are all proper. -/
theorem identity_first_bug (L0 : Lat) :
    let U : M3 := ⟨⟨1, 1 / 2, 0⟩, ⟨1 / 2, 1, 0⟩, ⟨0, 0, 1⟩⟩
    let c := exCrys L0 [⟨mirror, V3.zero⟩, idOp] U
    ExactCrystal c ∧ SpaceGroup c.L c.ops ∧ (∀ op ∈ c.ops, Balanced c.L op) ∧ GoodTensor U true ∧
      Displacements c (fun _ => true) (fun _ => exD62 U) ∧
      ∃ x ∈ Orbit c.L (equivPos c 0), let p := (equivPos c 0).headD V3.zero
        c.msd (fun _ => true) 0 0 (bondOf 0 p x) = 2 ∧ exD62 U p (V3.sub x p) + exD62 U x (V3.sub x p) = 1 := by
  intro U c
  have hm : ∀ op, op ∈ ([⟨mirror, V3.zero⟩, idOp] : List SymOp) ↔ op = idOp ∨ op = ⟨mirror, V3.zero⟩ := by
    intro op; simp [or_comm]
  have hc := exCrys_exact L0 _ U hm
  have hG := exCrys_group L0 _ hm
  have hD := exCrys_displacements L0 _ U hm
  refine ⟨hc, hG, exCrys_balanced L0 _ hm, ⟨rfl, fun h => by cases h⟩, hD, ?_⟩
  obtain ⟨reps, w, r1, r0, -, -, r4⟩ := sites_exact c hc 0 (Nat.zero_lt_one)
  have hU0 : (c.atoms.map Crystal.Site.uij).getD 0 M3.one = U := rfl
  have hf : fracPos c 0 = ⟨1 / 4, 0, 0⟩ := exCrys_frac L0 _ U
  have hcart : ∀ v, c.L.cartesian v = v := fun v => unitCubic_cart L0 v
  rw [hU0, hf] at r4
  cases reps with
  | nil => simp [c, exCrys] at r0
  | cons a reps =>
    have ha : a = ⟨mirror, V3.zero⟩ := by
      rw [List.head?_cons] at r0
      exact Option.some.inj r0
    subst ha
    have a2 : act ⟨mirror, V3.zero⟩ ⟨1 / 4, 0, 0⟩ = ⟨-(1 / 4), 0, 0⟩ := by
      ext <;> simp [act, mirror_apply, V3.add, V3.zero]
    have hp : (equivPos c 0).headD V3.zero = V3.add ⟨-(1 / 4), 0, 0⟩ (tripVec (w ⟨mirror, V3.zero⟩)) := by
      unfold equivPos
      rw [r4, List.map_cons, List.map_cons, a2, hcart]
      rfl
    have hmem : (equivPos c 0).headD V3.zero ∈ equivPos c 0 := headD_mem _ _ (equivPos_ne c hc.eps 0 Nat.zero_lt_one)
    have hx := mem_orbit c.L _ _ hmem (1, 1, 0)
    refine ⟨_, hx, ?_⟩
    intro p
    have hs : V3.sub (moved c.L p (1, 1, 0)) p = ⟨1, 1, 0⟩ := by
      unfold moved shift
      rw [hcart]
      ext <;> simp [V3.sub, V3.add, tripVec]
    have hxw : V3.sub (moved c.L ((equivPos c 0).headD V3.zero) (1, 1, 0)) p = ⟨1, 1, 0⟩ := hs
    have e1 : ∀ q : V3, (∃ k : ℤ, q.x = -(1 / 4) + k) → exD62 U q ⟨1, 1, 0⟩ = 1 / 2 := by
      rintro q ⟨k, hq⟩
      unfold exD62
      rw [if_neg, mirror_apply]
      · unfold meanSquareDisplacement
        have : V3.norm ⟨-1, 1, 0⟩ ^ 2 = 2 := by
          rw [sq, V3.norm_sq]
          norm_num [V3.dot]
        have hne : V3.norm (⟨-1, 1, 0⟩ : V3) ≠ 0 := by
          intro h
          rw [h] at this
          norm_num at this
        simp only [U, if_true]
        field_simp
        rw [this]
        norm_num
      · rintro ⟨n, hn⟩
        apply no_half (1 / 2) (Or.inl rfl) (k - n)
        push_cast
        rw [show (1 / 2 : ℝ) - (k - n) = 0 by linarith]
        norm_num
    have e2 : exD62 U p ⟨1, 1, 0⟩ = 1 / 2 := e1 p ⟨(w ⟨mirror, V3.zero⟩).1, by
      rw [show p = _ from hp]; simp [V3.add, tripVec]⟩
    have e3 : exD62 U (moved c.L ((equivPos c 0).headD V3.zero) (1, 1, 0)) ⟨1, 1, 0⟩ = 1 / 2 :=
      e1 _ ⟨(w ⟨mirror, V3.zero⟩).1 + 1, by
        rw [hp]
        unfold moved shift
        rw [hcart]
        simp [V3.add, tripVec]; ring⟩
    constructor
    · unfold Crys.msd bondOf
      dsimp only
      rw [hxw]
      have hsec : meanSquareDisplacement (c.ucartesian1 0 (moved c.L ((equivPos c 0).headD V3.zero) (1, 1, 0))) ⟨1, 1, 0⟩ true = 1 / 2 := by
        rw [ucartesian1_msd c hc hG (exCrys_balanced L0 _ hm) (fun _ => true) (fun i hi => by
          have hi0 : i = 0 := by
            have : i < 1 := hi
            omega
          subst hi0
          exact ⟨rfl, fun h => by cases h⟩) _ hD 0 Nat.zero_lt_one _ hx]
        exact e3
      rw [hsec]
      have h0 : c.ucartesian0 0 = U := rfl
      rw [h0]
      unfold meanSquareDisplacement
      have : V3.norm ⟨1, 1, 0⟩ ^ 2 = 2 := by
        rw [sq, V3.norm_sq]
        norm_num [V3.dot]
      have hne : V3.norm (⟨1, 1, 0⟩ : V3) ≠ 0 := by
        intro h
        rw [h] at this
        norm_num at this
      simp only [U, if_true]
      field_simp
      rw [this]
      norm_num
    · rw [hxw, e2, e3]
      norm_num

/-! ### An operation that mixes axes of different reciprocal lengths -/

/-- The cell a = (1, 0, 0), b = (1, 3/4, 0), c = (0, 0, 1). -/
noncomputable def skewLat (L0 : Lat) : Lat := (setLatBase L0 ⟨1, 0, 0⟩ ⟨1, 3 / 4, 0⟩ ⟨0, 0, 1⟩).1

/-- The mirror y → -y in the coordinates of that cell. -/
def skewMirror : M3 := ⟨⟨1, 2, 0⟩, ⟨0, -1, 0⟩, ⟨0, 0, 1⟩⟩

theorem skewLat_ok (L0 : Lat) : (setLatBase L0 ⟨1, 0, 0⟩ ⟨1, 3 / 4, 0⟩ ⟨0, 0, 1⟩).2 = true := by
  unfold setLatBase
  have d : M3.det ⟨⟨1, 0, 0⟩, ⟨1, 3 / 4, 0⟩, ⟨0, 0, 1⟩⟩ = (3 / 4 : ℝ) := by norm_num [M3.det, V3.dot, V3.cross]
  dsimp only
  rw [d, if_neg (by norm_num), if_neg (by norm_num)]

theorem skewLat_reachable (L0 : Lat) : Reachable (skewLat L0) := Reachable.createBase L0 _ _ _ (skewLat_ok L0)

theorem skewLat_fields (L0 : Lat) : (skewLat L0).base = ⟨⟨1, 0, 0⟩, ⟨1, 3 / 4, 0⟩, ⟨0, 0, 1⟩⟩ ∧
    (skewLat L0).ar = 5 / 3 ∧ (skewLat L0).br = 4 / 3 ∧ (skewLat L0).cr = 1 := by
  have d : M3.det ⟨⟨1, 0, 0⟩, ⟨1, 3 / 4, 0⟩, ⟨0, 0, 1⟩⟩ = (3 / 4 : ℝ) := by norm_num [M3.det, V3.dot, V3.cross]
  have n1 : V3.norm ⟨1, 0, 0⟩ = 1 := by
    unfold V3.norm V3.dot; norm_num
  have n2 : V3.norm ⟨1, 3 / 4, 0⟩ = 5 / 4 := by
    unfold V3.norm V3.dot
    rw [show (1 * 1 + 3 / 4 * (3 / 4) + 0 * 0 : ℝ) = (5 / 4) ^ 2 by norm_num]
    exact Real.sqrt_sq (by norm_num)
  have n3 : V3.norm ⟨0, 0, 1⟩ = 1 := by
    unfold V3.norm V3.dot; norm_num
  have q1 : Real.sqrt (1 - 4 / 5 * (4 / 5)) = 3 / 5 := by
    rw [show (1 - 4 / 5 * (4 / 5) : ℝ) = (3 / 5) ^ 2 by norm_num]
    exact Real.sqrt_sq (by norm_num)
  have g1 : V3.dot ⟨1, 0, 0⟩ ⟨1, 3 / 4, 0⟩ = 1 := by norm_num [V3.dot]
  have g2 : V3.dot ⟨1, 0, 0⟩ ⟨0, 0, 1⟩ = 0 := by norm_num [V3.dot]
  have g3 : V3.dot ⟨1, 3 / 4, 0⟩ ⟨0, 0, 1⟩ = 0 := by norm_num [V3.dot]
  have vn : vnormSq 0 0 (4 / 5) = 1 - 4 / 5 * (4 / 5) := by norm_num [vnormSq]
  have c1 : (1 : ℝ) / (1 * (5 / 4)) = 4 / 5 := by norm_num
  have s0 : Real.sqrt (1 - 0 * 0) = 1 := by norm_num
  unfold skewLat setLatBase
  dsimp only
  rw [d, if_neg (by norm_num), if_neg (by norm_num)]
  unfold Lat.updateMetrics Lat.updateRecNorm Lat.updateStandardBase Lat.updateReciprocal Lat.volumeNormal
  dsimp only
  rw [n1, n2, n3, g1, g2, g3, c1]
  simp only [zero_div, s0, vn, q1]
  norm_num

/-- C62 fails for an operation that mixes axes of different reciprocal lengths: `R U Rᵀ` is formed in the coordinates that
are normalised by the reciprocal lengths, in which the operation is another matrix.  The image of an isotropic atom with
mean square displacement 1 gets 13/9 along the first axis, which is what is used for an isotropic atom in any direction. -/
theorem unbalanced_bug (L0 : Lat) :
    SpaceGroup (skewLat L0) [idOp, ⟨skewMirror, V3.zero⟩] ∧
      ∀ s, meanSquareDisplacement M3.one s false = 1 ∧
        meanSquareDisplacement (imageTensor (skewLat L0) ⟨skewMirror, V3.zero⟩ M3.one)
          (rotC (skewLat L0) ⟨skewMirror, V3.zero⟩ s) false = 13 / 9 := by
  obtain ⟨hb, ha1, ha2, ha3⟩ := skewLat_fields L0
  have hL := good_of_reachable _ (skewLat_reachable L0)
  constructor
  · refine pair_group _ skewMirror _ (fun op => by simp) ?_ ?_ ?_
    · intro t
      refine ⟨(t.1 + 2 * t.2.1, -t.2.1, t.2.2), ?_⟩
      ext <;> simp [skewMirror, M3.mulVec, V3.dot, tripVec]
    · intro v
      rw [norm_cartesian _ hL, norm_cartesian _ hL]
      unfold Lat.cartesian
      rw [hb]
      unfold V3.norm
      congr 1
      simp only [skewMirror, M3.mulVec, M3.vecMul, V3.dot, M3.c0, M3.c1, M3.c2]
      ring
    · intro v
      ext <;> simp [skewMirror, M3.mulVec, V3.dot]
  · intro s
    refine ⟨rfl, ?_⟩
    unfold meanSquareDisplacement imageTensor Lat.cartesianMatrix Lat.fractionalMatrix
    have hinv := hL.recnorm_eq
    rw [hL.norm_eq, hinv, hL.rec_eq, hb, ha1, ha2, ha3]
    norm_num [M3.inverse, M3.det, M3.mul, M3.trans, M3.vecMul, V3.dot, V3.smul, M3.one, M3.c0, M3.c1, M3.c2, skewMirror,
      V3.cross]

end Verif.PDFCache
