import Verif.Lemmas.Crystal
import Mathlib.Data.List.GetD
/-!
# C34, C46: symmetry expansion and bonds of crystal structures
-/
namespace Verif.Crystal
open Verif.R3 Verif.MathUtils Verif.Lattice Verif.Points Verif.BondGen Verif.Periodic Classical

/-- Specification: the image `R x + t` of the atom position under a symmetry operation, written out. -/
def opImage (a0 : Site) (op : SymOp) : V3 :=
  ⟨op.R.r0.x * a0.xyz.x + op.R.r0.y * a0.xyz.y + op.R.r0.z * a0.xyz.z + op.t.x,
   op.R.r1.x * a0.xyz.x + op.R.r1.y * a0.xyz.y + op.R.r1.z * a0.xyz.z + op.t.y,
   op.R.r2.x * a0.xyz.x + op.R.r2.y * a0.xyz.y + op.R.r2.z * a0.xyz.z + op.t.z⟩

theorem image_eq_opImage : image = opImage := by
  funext a0 op
  rfl

/-- **C34**.  For a non-empty list of operations the equivalent sites correspond one to one to a
sublist `reps` of the operations that begins with the first operation, such that no two of their images coincide modulo the lattice
within the precision and every image coincides with one of them; the displacement tensors are
transformed by the same operations and all positions are inside the unit cell.  If images that
coincide are also within `δ` of each other after wrapping into the cell, each reported position is
within `δ` of the wrapped image. -/
theorem expand_partial (L : Lat) (h : Reachable L) (eps : ℝ) (he : 0 ≤ eps) (hs : SmallEps L eps)
    (ops : List SymOp) (hne : ops ≠ []) (a0 : Site) :
    ∃ reps : List SymOp, reps.Sublist ops ∧ reps.head? = ops.head? ∧
      (reps.map (opImage a0)).Pairwise (fun u v => ¬ ModClose L eps u v) ∧
      (∀ op ∈ ops, ∃ r ∈ reps, ModClose L eps (opImage a0 r) (opImage a0 op)) ∧
      (expandLatticeAtom L eps ops a0).map Site.uij
        = reps.map (fun op => M3.mul op.R (M3.mul a0.uij (M3.trans op.R))) ∧
      (∀ s ∈ expandLatticeAtom L eps ops a0, InCell s.xyz) ∧
      (∀ δ, (∀ o ∈ ops, ∀ o' ∈ ops, ModClose L eps (opImage a0 o) (opImage a0 o') →
          V3.distance (L.cartesian (ucvFractional (opImage a0 o)))
            (L.cartesian (ucvFractional (opImage a0 o'))) ≤ δ) →
        List.Forall₂ (fun (s : Site) op => V3.distance (L.cartesian s.xyz)
          (L.cartesian (ucvFractional (opImage a0 op))) ≤ δ) (expandLatticeAtom L eps ops a0) reps) := by
  rw [← image_eq_opImage]
  have hI := inv_loop L eps he a0 ops
  obtain ⟨reps, hr1, hr0, hr2⟩ := hI.reps
  have hexp : expandLatticeAtom L eps ops a0 = (expandLoop L eps ops a0).map
      fun e => { e.site with xyz := V3.smul (1 / (e.cnt : ℝ)) e.sum } := by
    unfold expandLatticeAtom
    have : ops.isEmpty = false := by simpa using hne
    simp [this]
  have hxyz : (expandLoop L eps ops a0).map (fun e => e.site.xyz) = reps.map (image a0) := by
    have := congrArg (List.map Site.xyz) hr2
    rw [List.map_map, List.map_map] at this
    exact this
  refine ⟨reps, hr1, hr0, ?_, ?_, ?_, ?_, ?_⟩
  · rw [← hxyz]
    exact hI.pw.imp fun hn hc => hn ((samePos_iff L h eps hs _ _).2 hc)
  · intro op hop
    obtain ⟨e, he1, he2⟩ := hI.cov op hop
    have : e.site.xyz ∈ reps.map (image a0) := by rw [← hxyz]; exact List.mem_map.2 ⟨e, he1, rfl⟩
    obtain ⟨r, hr, hre⟩ := List.mem_map.1 this
    exact ⟨r, hr, by rw [hre]; exact samePos_modClose L h eps _ _ he2⟩
  · have := congrArg (List.map Site.uij) hr2
    rw [List.map_map, List.map_map] at this
    rw [hexp, List.map_map]
    exact this
  · intro s hs'
    rw [hexp] at hs'
    obtain ⟨e, he1, rfl⟩ := List.mem_map.1 hs'
    obtain ⟨g, g1, g2, g3, g4⟩ := hI.entry e he1
    have := mean_inCell (g.map fun op => ucvFractional (image a0 op)) (by simpa using g1) (by
      intro y hy
      obtain ⟨op, _, rfl⟩ := List.mem_map.1 hy
      exact ucvFractional_range _)
    rw [List.length_map, ← g3, ← g4] at this
    exact this
  · intro δ hδ
    have key : ∀ (es : List Acc) (rs : List SymOp), es.map Acc.site = rs.map (siteOf a0) →
        (∀ e ∈ es, EntryOK L eps a0 ops e) → (∀ r ∈ rs, r ∈ ops) →
        List.Forall₂ (fun (s : Site) op => V3.distance (L.cartesian s.xyz)
          (L.cartesian (ucvFractional (image a0 op))) ≤ δ)
          (es.map fun e => { e.site with xyz := V3.smul (1 / (e.cnt : ℝ)) e.sum }) rs := by
      intro es
      induction es with
      | nil =>
        intro rs hrs _ _
        cases rs with
        | nil => exact List.Forall₂.nil
        | cons r rs => simp at hrs
      | cons e es ih =>
        intro rs hrs hent hin
        cases rs with
        | nil => simp at hrs
        | cons r rs =>
          simp only [List.map_cons, List.cons.injEq] at hrs
          refine List.Forall₂.cons ?_ (ih rs hrs.2 (fun e' he' => hent e' (by simp [he']))
            fun r' hr' => hin r' (by simp [hr']))
          obtain ⟨g, g1, g2, g3, g4⟩ := hent e (by simp)
          have hx : e.site.xyz = image a0 r := by rw [hrs.1]; rfl
          have hm := mean_close L (g.map fun op => ucvFractional (image a0 op)) (by simpa using g1)
            (ucvFractional (image a0 r)) δ (by
              intro y hy
              obtain ⟨op, hop, rfl⟩ := List.mem_map.1 hy
              have hc := (g2 op hop).2
              rw [hx] at hc
              have := hδ op (g2 op hop).1 r (hin r (by simp))
                (modClose_symm L eps _ _ (samePos_modClose L h eps _ _ hc))
              unfold V3.distance Lat.cartesian at this
              rw [← M3.vecMul_sub] at this
              exact this)
          rw [List.length_map, ← g3, ← g4] at hm
          show V3.norm (V3.sub (L.cartesian _) (L.cartesian _)) ≤ δ
          unfold Lat.cartesian at *
          rw [← M3.vecMul_sub]
          exact hm
    rw [hexp]
    exact key _ _ hr2 hI.entry fun r hr => hr1.subset hr

/-- **C34**, exact special positions: if images coinciding within the precision wrap to the same
point, the reported sites are exactly the wrapped images of the representatives with the tensors transformed by the
same operations. -/
theorem expand_exact_sites (L : Lat) (h : Reachable L) (eps : ℝ) (he : 0 ≤ eps) (hs : SmallEps L eps)
    (ops : List SymOp) (hne : ops ≠ []) (a0 : Site)
    (hx : ∀ o ∈ ops, ∀ o' ∈ ops, ModClose L eps (opImage a0 o) (opImage a0 o') →
      ucvFractional (opImage a0 o) = ucvFractional (opImage a0 o')) :
    ∃ reps : List SymOp, reps.Sublist ops ∧ reps.head? = ops.head? ∧
      (reps.map (opImage a0)).Pairwise (fun u v => ¬ ModClose L eps u v) ∧
      (∀ op ∈ ops, ∃ r ∈ reps, ModClose L eps (opImage a0 r) (opImage a0 op)) ∧
      expandLatticeAtom L eps ops a0 = reps.map fun op =>
        ⟨ucvFractional (opImage a0 op), M3.mul op.R (M3.mul a0.uij (M3.trans op.R))⟩ := by
  obtain ⟨reps, r1, r0, r2, r3, r4, r5, r6⟩ := expand_partial L h eps he hs ops hne a0
  have hz := r6 0 (by
    intro o ho o' ho' hc
    rw [hx o ho o' ho' hc]
    unfold V3.distance
    have : V3.sub (L.cartesian (ucvFractional (opImage a0 o'))) (L.cartesian (ucvFractional (opImage a0 o'))) = V3.zero := by
      ext <;> simp [V3.sub, V3.zero]
    rw [this, V3.norm_zero])
  have heq : expandLatticeAtom L eps ops a0 = reps.map fun op =>
      ⟨ucvFractional (opImage a0 op), M3.mul op.R (M3.mul a0.uij (M3.trans op.R))⟩ := by
    clear r0 r1 r2 r3 r5 r6
    generalize expandLatticeAtom L eps ops a0 = E at hz r4 ⊢
    induction hz with
    | nil => rfl
    | @cons s op ss os h1 _ ih =>
      rw [List.map_cons, List.map_cons, List.cons.injEq] at r4
      rw [List.map_cons, ih r4.2]
      congr 1
      have h0 := V3.norm_eq_zero _ (le_antisymm h1 (V3.norm_nonneg _))
      have : ∀ u v : V3, V3.sub (L.cartesian u) (L.cartesian v) = V3.zero → u = v := by
        intro u v huv
        have e : L.cartesian u = L.cartesian v := by
          have h1 := congrArg V3.x huv
          have h2 := congrArg V3.y huv
          have h3 := congrArg V3.z huv
          simp only [V3.sub, V3.zero] at h1 h2 h3
          ext <;> linarith
        have := congrArg L.fractional e
        rwa [(cartesian_fractional L h u).2, (cartesian_fractional L h v).2] at this
      cases s
      rw [Site.mk.injEq]
      exact ⟨this _ _ h0, r4.1⟩
  exact ⟨reps, r1, r0, r2, r3, heq⟩

/-- **C34**, exact special positions, positions only. -/
theorem expand_exact_positions (L : Lat) (h : Reachable L) (eps : ℝ) (he : 0 ≤ eps) (hs : SmallEps L eps)
    (ops : List SymOp) (hne : ops ≠ []) (a0 : Site)
    (hx : ∀ o ∈ ops, ∀ o' ∈ ops, ModClose L eps (opImage a0 o) (opImage a0 o') →
      ucvFractional (opImage a0 o) = ucvFractional (opImage a0 o')) :
    ∃ reps : List SymOp, reps.Sublist ops ∧
      (reps.map (opImage a0)).Pairwise (fun u v => ¬ ModClose L eps u v) ∧
      (∀ op ∈ ops, ucvFractional (opImage a0 op) ∈ (expandLatticeAtom L eps ops a0).map Site.xyz) ∧
      (expandLatticeAtom L eps ops a0).map Site.xyz = reps.map (fun op => ucvFractional (opImage a0 op)) := by
  obtain ⟨reps, r1, -, r2, r3, r4⟩ := expand_exact_sites L h eps he hs ops hne a0 hx
  have heq : (expandLatticeAtom L eps ops a0).map Site.xyz = reps.map fun op => ucvFractional (opImage a0 op) := by
    rw [r4, List.map_map]
    rfl
  refine ⟨reps, r1, r2, ?_, heq⟩
  intro op hop
  obtain ⟨r, hr, hc⟩ := r3 op hop
  rw [heq, List.mem_map]
  exact ⟨r, hr, hx r (r1.subset hr) op hop hc⟩

/-! ### The unit cubic lattice, used for witnesses -/

/-- The unit cubic lattice. -/
noncomputable def unitCubic (L0 : Lat) : Lat := Lattice.create L0 1 1 1 90 90 90

theorem unitCubic_reachable (L0 : Lat) : Reachable (unitCubic L0) := Reachable.create _ _ _ _ _ _ _ cubic_valid

theorem unitCubic_norm (L0 : Lat) (v : V3) : (unitCubic L0).norm v = V3.norm v := by
  have hL := good_of_reachable _ (unitCubic_reachable L0)
  have c90 : cosd 90 = 0 := by have := (cosd_exact 0).2.2.1; simpa using this
  have h1 : (unitCubic L0).ca = 0 := c90
  have h2 : (unitCubic L0).cb = 0 := c90
  have h3 : (unitCubic L0).cg = 0 := c90
  have a1 : (unitCubic L0).a = 1 := rfl
  have a2 : (unitCubic L0).b = 1 := rfl
  have a3 : (unitCubic L0).c = 1 := rfl
  unfold Lat.norm Lat.dot V3.norm V3.dot
  rw [hL.metrics_eq, h1, h2, h3, a1, a2, a3]
  congr 1
  simp only
  ring

theorem unitCubic_base (L0 : Lat) : (unitCubic L0).base = M3.one := by
  have c90 : cosd 90 = 0 := by have := (cosd_exact 0).2.2.1; simpa using this
  have s90 : sind 90 = 1 := by
    rw [sind_eq_sin, show (90 : ℝ) * Real.pi / 180 = Real.pi / 2 by ring, Real.sin_pi_div_two]
  unfold unitCubic Lattice.create setLatPar Lat.updateRecNorm Lat.updateStandardBase Lat.updateMetrics
    Lat.updateReciprocal Lat.volumeNormal
  simp only [c90, s90, vnormSq]
  rw [M3.mul_one]
  norm_num [M3.one]

theorem unitCubic_cart (L0 : Lat) (v : V3) : (unitCubic L0).cartesian v = v := by
  unfold Lat.cartesian; rw [unitCubic_base, M3.vecMul_one]

theorem unitCubic_frac (L0 : Lat) (v : V3) : (unitCubic L0).fractional v = v := by
  have := (cartesian_fractional _ (unitCubic_reachable L0) v).1
  rwa [unitCubic_cart] at this

/-- Space group P-1 on an atom at x = 1e-5 (default precision 5e-5). -/
noncomputable def inversionOps : List SymOp := [⟨M3.one, V3.zero⟩, ⟨⟨⟨-1, 0, 0⟩, ⟨0, -1, 0⟩, ⟨0, 0, -1⟩⟩, V3.zero⟩]

theorem ucv_small (x : ℝ) (h : 0 ≤ x) (h1 : x < 1 / 2) : ucvFractional ⟨x, 0, 0⟩ = ⟨x, 0, 0⟩ := by
  have f : ⌊x⌋ = 0 := Int.floor_eq_zero_iff.2 ⟨h, by linarith⟩
  have s0 : snap 0 = 0 := by unfold snap; split <;> rfl
  have sx : snap x = x := by
    unfold snap eps_eq
    rw [if_neg]
    have : sqrtEps = 1 / 2 ^ 26 := rfl
    rw [this, abs_le]
    intro ⟨h2, _⟩
    norm_num at h2
    linarith
  unfold ucvFractional V3.sub V3.floor
  simp [f, s0, sx]

theorem ucv_neg (x : ℝ) (h : 1 / 10 ^ 7 < x) (h1 : x < 1 / 2) : ucvFractional ⟨-x, 0, 0⟩ = ⟨1 - x, 0, 0⟩ := by
  have f : ⌊-x⌋ = -1 := by rw [Int.floor_eq_iff]; norm_num; constructor <;> linarith
  have s0 : snap 0 = 0 := by unfold snap; split <;> rfl
  have sx : snap (1 - x) = 1 - x := by
    unfold snap eps_eq
    rw [if_neg]
    have : sqrtEps = 1 / 2 ^ 26 := rfl
    rw [this, abs_le]
    rintro ⟨h2, _⟩
    norm_num at h h2
    linarith
  unfold ucvFractional V3.sub V3.floor
  simp only [f]
  norm_num
  rw [show -x + 1 = 1 - x by ring]
  exact ⟨sx, s0⟩

theorem inv_images (x : ℝ) (U : M3) : inversionOps.map (image ⟨⟨x, 0, 0⟩, U⟩) = [⟨x, 0, 0⟩, ⟨-x, 0, 0⟩] := by
  simp [inversionOps, image, M3.mulVec, M3.one, V3.dot, V3.add, V3.zero]

/-- Negation of the full C34: an atom within the precision of an inversion centre at the cell
corner, but on the other side of the round-off tolerance, is reported at x = 1/2, far from all its
images: the wrapped coordinates 1e-5 and 1 - 1e-5 are averaged. -/
theorem expand_average_bug (L0 : Lat) (U : M3) :
    let L := unitCubic L0
    let a0 : Site := ⟨⟨1 / 10 ^ 5, 0, 0⟩, U⟩
    (expandLatticeAtom L (5 / 10 ^ 5) inversionOps a0).map Site.xyz = [⟨1 / 2, 0, 0⟩] ∧
    ∀ op ∈ inversionOps, ¬ ModClose L (4 / 10) ⟨1 / 2, 0, 0⟩ (opImage a0 op) := by
  intro L a0
  have hi := inv_images (1 / 10 ^ 5) U
  simp only [inversionOps, List.map_cons, List.map_nil, List.cons.injEq, and_true] at hi
  obtain ⟨i1, i2⟩ := hi
  constructor
  · have hsame : samePos L (5 / 10 ^ 5) ⟨1 / 10 ^ 5, 0, 0⟩ ⟨-(1 / 10 ^ 5), 0, 0⟩ := by
      unfold samePos
      rw [unitCubic_norm]
      have c0 : cRound 0 = 0 := cRound_unique 0 0 (by norm_num)
      have c1 : cRound (1 / 10 ^ 5 - -(1 / 10 ^ 5)) = 0 := cRound_unique _ 0 (by norm_num)
      unfold wrapDiff V3.sub
      simp only [c1, sub_self, c0]
      unfold V3.norm V3.dot
      apply Real.sqrt_le_iff.2
      constructor <;> norm_num
    have e : expandLoop L (5 / 10 ^ 5) inversionOps a0 =
        [⟨⟨⟨1 / 10 ^ 5, 0, 0⟩, (siteOf a0 ⟨M3.one, V3.zero⟩).uij⟩,
          V3.add (V3.add V3.zero (ucvFractional ⟨1 / 10 ^ 5, 0, 0⟩)) (ucvFractional ⟨-(1 / 10 ^ 5), 0, 0⟩), 2⟩] := by
      unfold expandLoop inversionOps
      simp only [List.foldl_cons, List.foldl_nil]
      have s1 : expandStep L (5 / 10 ^ 5) a0 [] ⟨M3.one, V3.zero⟩ =
          [⟨⟨⟨1 / 10 ^ 5, 0, 0⟩, (siteOf a0 ⟨M3.one, V3.zero⟩).uij⟩,
            V3.add V3.zero (ucvFractional ⟨1 / 10 ^ 5, 0, 0⟩), 1⟩] := by
        unfold expandStep findEqualPosition
        simp only [List.findIdx?_nil, List.nil_append, a0, i1]
        rfl
      rw [s1]
      unfold expandStep findEqualPosition
      simp only [a0, i2]
      rw [List.findIdx?_cons]
      simp only [hsame, decide_true, if_true]
      rfl
    unfold expandLatticeAtom
    have : inversionOps.isEmpty = false := rfl
    simp only [this, Bool.false_eq_true, if_false]
    rw [e, ucv_small _ (by norm_num) (by norm_num), ucv_neg _ (by norm_num) (by norm_num)]
    simp only [List.map_cons, List.map_nil, List.cons.injEq, and_true]
    ext <;> norm_num [V3.smul, V3.add, V3.zero]
  · have key : ∀ x : ℝ, |x| ≤ 1 / 100 → ¬ ModClose L (4 / 10) ⟨1 / 2, 0, 0⟩ ⟨x, 0, 0⟩ := by
      rintro x hx ⟨k, hk⟩
      rw [unitCubic_cart, unitCubic_cart, unitCubic_cart] at hk
      have h1 := le_trans (V3.abs_x_le _) hk
      simp only [V3.sub, V3.add, tripVec] at h1
      rw [abs_le] at h1 hx
      have b1 : (k.1 : ℝ) < 1 := by linarith
      have b2 : (-1 : ℝ) < k.1 := by linarith
      have b3 : k.1 < 1 := by exact_mod_cast b1
      have b4 : -1 < k.1 := by exact_mod_cast b2
      have : k.1 = 0 := by omega
      rw [this] at h1
      norm_num at h1
      linarith
    intro op hop
    simp only [inversionOps, List.mem_cons, List.not_mem_nil, or_false] at hop
    rcases hop with rfl | rfl
    · simp only [a0]; rw [← image_eq_opImage, i1]; exact key _ (by rw [abs_le]; constructor <;> norm_num)
    · simp only [a0]; rw [← image_eq_opImage, i2]; exact key _ (by rw [abs_le]; constructor <;> norm_num)

/-! ### The cache -/

/-- The reported equivalent sites are those of the present atoms, lattice, operations, precision. -/
def Current (c : Crys) : Prop :=
  ∀ i, i < c.atoms.length → (c.getEquivalentAtoms i).2 = (c.atoms.map (symOf c.L c.eps c.ops)).getD i [] ∧
    c.siteMultiplicity i = ((c.atoms.map (symOf c.L c.eps c.ops)).getD i []).length

theorem current_of_refresh (c : Crys) (h : c.refresh.sym = c.atoms.map (symOf c.L c.eps c.ops)) : Current c := by
  intro i _
  unfold Crys.getEquivalentAtoms Crys.siteMultiplicity
  rw [h]
  exact ⟨rfl, rfl⟩

/-- Calls that change atoms, lattice, operations or precision without reading the symmetry data. -/
def Call.isEdit : Call → Bool
  | .createBondGenerator => false
  | .query => false
  | _ => true

/-- Calls that change atoms or lattice. -/
def Call.changesAtoms : Call → Bool
  | .setAtoms _ => true
  | .setLattice _ => true
  | _ => false

/-- **C34**, cache part: an adapter that is set up by any edits after construction (or after any
symmetry-operation change) and then used without changing atoms or lattice reports the equivalent
sites and multiplicities of its present contents. -/
theorem multiplicity_current_partial (c : Crys) (hc : c.cached = false) (edits rest : List Call)
    (he : ∀ k ∈ edits, k.isEdit = true) (hr : ∀ k ∈ rest, k.changesAtoms = false) :
    Current (rest.foldl Crys.call (edits.foldl Crys.call c)) := by
  have e1 : ∀ (edits : List Call) (c : Crys), c.cached = false → (∀ k ∈ edits, k.isEdit = true) →
      (edits.foldl Crys.call c).cached = false := by
    intro edits
    induction edits with
    | nil => intro c h _; exact h
    | cons k ks ih =>
      intro c h hk
      apply ih _ _ fun k' hk' => hk k' (by simp [hk'])
      have := hk k (by simp)
      cases k <;> simp_all [Crys.call, Call.isEdit]
  have e2 : ∀ (rest : List Call) (c : Crys),
      (c.cached = false ∨ c.sym = c.atoms.map (symOf c.L c.eps c.ops)) →
      (∀ k ∈ rest, k.changesAtoms = false) →
      ((rest.foldl Crys.call c).cached = false ∨ (rest.foldl Crys.call c).sym =
        (rest.foldl Crys.call c).atoms.map (symOf (rest.foldl Crys.call c).L
          (rest.foldl Crys.call c).eps (rest.foldl Crys.call c).ops)) := by
    intro rest
    induction rest with
    | nil => intro c h _; exact h
    | cons k ks ih =>
      intro c h hk
      apply ih _ _ fun k' hk' => hk k' (by simp [hk'])
      have hk0 := hk k (by simp)
      cases k with
      | setAtoms as => simp [Call.changesAtoms] at hk0
      | setLattice L => simp [Call.changesAtoms] at hk0
      | addSymOp op => exact Or.inl rfl
      | clearSymOps => exact Or.inl rfl
      | setPrecision e =>
        simp only [Crys.call]
        by_cases hee : e = c.eps
        · subst hee; simpa using h
        · left; simp [hee]
      | createBondGenerator => exact Or.inr rfl
      | query =>
        simp only [Crys.call]
        right
        unfold Crys.refresh
        simp only
        split
        · rename_i hcc
          rcases h with h | h
          · simp [Crys.isSymmetryCached, h] at hcc
          · exact h
        · rfl
  have h := e2 rest _ (Or.inl (e1 edits c hc he)) hr
  generalize rest.foldl Crys.call (edits.foldl Crys.call c) = d at h
  apply current_of_refresh
  unfold Crys.refresh
  simp only
  split
  · rename_i hcc
    rcases h with h | h
    · simp [Crys.isSymmetryCached, h] at hcc
    · exact h
  · rfl

/-- **C34**, cache part: a change of the number of atoms is always noticed. -/
theorem multiplicity_current_count_partial (c : Crys) (as : List Site) (h : as.length ≠ c.sym.length) :
    Current (c.call (.setAtoms as)) := by
  apply current_of_refresh
  unfold Crys.refresh Crys.isSymmetryCached Crys.call
  have : (c.sym.length == as.length) = false := by
    rw [beq_eq_false_iff_ne]; exact fun h' => h h'.symm
  simp [this]
  rfl

/-- Negation of the full C34 for the cache: after moving an atom onto the inversion centre the
adapter still reports multiplicity 2 instead of 1. -/
theorem multiplicity_stale_bug (L0 : Lat) (U : M3) :
    ∃ (calls : List Call),
      let c := calls.foldl Crys.call ⟨[], unitCubic L0, [], 5 / 10 ^ 5, false, []⟩
      c.siteMultiplicity 0 = 2 ∧ ((c.atoms.map (symOf c.L c.eps c.ops)).getD 0 []).length = 1 := by
  refine ⟨[.setAtoms [⟨⟨1 / 4, 0, 0⟩, U⟩], .addSymOp ⟨M3.one, V3.zero⟩,
    .addSymOp ⟨⟨⟨-1, 0, 0⟩, ⟨0, -1, 0⟩, ⟨0, 0, -1⟩⟩, V3.zero⟩, .query, .setAtoms [⟨⟨0, 0, 0⟩, U⟩]], ?_⟩
  have hlen : ∀ (x : ℝ) (V : M3), (expandLatticeAtom (unitCubic L0) (5 / 10 ^ 5) inversionOps ⟨⟨x, 0, 0⟩, V⟩).length
      = if samePos (unitCubic L0) (5 / 10 ^ 5) ⟨x, 0, 0⟩ ⟨-x, 0, 0⟩ then 1 else 2 := by
    intro x V
    have hi := inv_images x V
    simp only [inversionOps, List.map_cons, List.map_nil, List.cons.injEq, and_true] at hi
    obtain ⟨i1, i2⟩ := hi
    unfold expandLatticeAtom
    have : inversionOps.isEmpty = false := rfl
    simp only [this, Bool.false_eq_true, if_false, List.length_map]
    unfold expandLoop inversionOps
    simp only [List.foldl_cons, List.foldl_nil]
    have s1 : expandStep (unitCubic L0) (5 / 10 ^ 5) ⟨⟨x, 0, 0⟩, V⟩ [] ⟨M3.one, V3.zero⟩ =
        [⟨⟨⟨x, 0, 0⟩, (siteOf ⟨⟨x, 0, 0⟩, V⟩ ⟨M3.one, V3.zero⟩).uij⟩,
          V3.add V3.zero (ucvFractional ⟨x, 0, 0⟩), 1⟩] := by
      unfold expandStep findEqualPosition
      simp only [List.findIdx?_nil, List.nil_append, i1]
      rfl
    rw [s1]
    unfold expandStep findEqualPosition
    simp only [i2]
    rw [List.findIdx?_cons]
    by_cases hs : samePos (unitCubic L0) (5 / 10 ^ 5) ⟨x, 0, 0⟩ ⟨-x, 0, 0⟩ <;> simp [hs]
  have hsym : ∀ (x : ℝ) (V : M3), (symOf (unitCubic L0) (5 / 10 ^ 5) inversionOps ⟨⟨x, 0, 0⟩, V⟩).length
      = if samePos (unitCubic L0) (5 / 10 ^ 5) ⟨x, 0, 0⟩ ⟨-x, 0, 0⟩ then 1 else 2 := by
    intro x V
    unfold symOf
    rw [List.length_map]
    unfold toFractional
    simp only [unitCubic_frac]
    exact hlen x _
  have q0 : samePos (unitCubic L0) (5 / 10 ^ 5) ⟨0, 0, 0⟩ ⟨-0, 0, 0⟩ := by
    rw [neg_zero]; exact samePos_refl _ _ (by norm_num) _
  have q1 : ¬ samePos (unitCubic L0) (5 / 10 ^ 5) ⟨1 / 4, 0, 0⟩ ⟨-(1 / 4), 0, 0⟩ := by
    intro hq
    obtain ⟨k, hk⟩ := samePos_modClose _ (unitCubic_reachable L0) _ _ _ hq
    rw [unitCubic_cart, unitCubic_cart, unitCubic_cart] at hk
    have h1 := le_trans (V3.abs_x_le _) hk
    simp only [V3.sub, V3.add, tripVec] at h1
    rw [abs_le] at h1
    have b1 : (k.1 : ℝ) < 1 := by linarith
    have b2 : (0 : ℝ) < k.1 := by linarith
    have b3 : k.1 < 1 := by exact_mod_cast b1
    have b4 : 0 < k.1 := by exact_mod_cast b2
    omega
  have hops : ([] ++ [(⟨M3.one, V3.zero⟩ : SymOp)]) ++ [⟨⟨⟨-1, 0, 0⟩, ⟨0, -1, 0⟩, ⟨0, 0, -1⟩⟩, V3.zero⟩] = inversionOps := rfl
  simp only [List.foldl_cons, List.foldl_nil, Crys.call, Crys.refresh, Crys.isSymmetryCached, hops,
    Bool.false_and, Bool.false_eq_true, if_false, Crys.updateSymmetryPositions, Crys.siteMultiplicity,
    List.map_cons, List.map_nil, List.length_cons, List.length_nil, beq_self_eq_true, Bool.and_self, if_true,
    List.getD_cons_zero]
  rw [hsym, hsym, if_neg q1, if_pos q0]
  exact ⟨rfl, rfl⟩

/-! ### Bonds -/

theorem symOf_ne_nil (L : Lat) (eps : ℝ) (he : 0 ≤ eps) (ops : List SymOp) (a : Site) : symOf L eps ops a ≠ [] := by
  unfold symOf expandLatticeAtom
  cases ops with
  | nil => simp
  | cons op ops =>
    have hI := inv_loop L eps he (toFractional L a) (op :: ops)
    obtain ⟨e, he1, _⟩ := hI.cov op (by simp)
    have hne : expandLoop L eps (op :: ops) (toFractional L a) ≠ [] := List.ne_nil_of_mem he1
    simp [hne]

theorem symOf_inCell (L : Lat) (eps : ℝ) (he : 0 ≤ eps) (ops : List SymOp) (hne : ops ≠ [])
    (a : Site) : ∀ s ∈ symOf L eps ops a, ∃ u, InCell u ∧ s.xyz = L.cartesian u := by
  intro s hs
  unfold symOf at hs
  obtain ⟨s0, hs0, rfl⟩ := List.mem_map.1 hs
  have hI := inv_loop L eps he (toFractional L a) ops
  refine ⟨s0.xyz, ?_, rfl⟩
  have hexp : expandLatticeAtom L eps ops (toFractional L a) = (expandLoop L eps ops (toFractional L a)).map
      fun e => { e.site with xyz := V3.smul (1 / (e.cnt : ℝ)) e.sum } := by
    unfold expandLatticeAtom
    have : ops.isEmpty = false := by simpa using hne
    simp [this]
  rw [hexp] at hs0
  obtain ⟨e, he1, rfl⟩ := List.mem_map.1 hs0
  obtain ⟨g, g1, g2, g3, g4⟩ := hI.entry e he1
  have := mean_inCell (g.map fun op => ucvFractional (image (toFractional L a) op)) (by simpa using g1) (by
    intro y hy
    obtain ⟨op, _, rfl⟩ := List.mem_map.1 hy
    exact ucvFractional_range _)
  rw [List.length_map, ← g3, ← g4] at this
  exact this

/-- Cartesian equivalent positions of site `i`, computed afresh. -/
noncomputable def equivPos (c : Crys) (i : Nat) : List V3 :=
  ((c.atoms.map (symOf c.L c.eps c.ops)).getD i []).map Site.xyz

/-- **C46**: with at least one symmetry operation, the loop over the crystal bond generator visits
for every selected site, every equivalent position of it and every lattice vector the bond in range,
each exactly once. -/
theorem crystal_bonds_exact (c : Crys) (h : Reachable c.L) (he : 0 ≤ c.eps) (hne : c.ops ≠ []) (rmin rmax : ℝ)
    (anchor : Nat) (ha : anchor < c.atoms.length) (sel : List Nat) (hsel : sel.Nodup)
    (hin : ∀ i ∈ sel, i < c.atoms.length) (old : Cur) (bonds : List Bond)
    (hb : CrystalBonds c rmin rmax anchor sel old bonds) :
    let r0 := (equivPos c anchor).headD V3.zero
    let r1 : Nat × Nat × (ℤ × ℤ × ℤ) → V3 := fun p =>
      V3.add (c.L.cartesian (tripVec p.2.2)) ((equivPos c p.1).getD p.2.1 V3.zero)
    ∃ T : List (Nat × Nat × (ℤ × ℤ × ℤ)), T.Nodup ∧
      (∀ i k t, (i, k, t) ∈ T ↔ i ∈ sel ∧ k < (equivPos c i).length ∧
        GoodDist ⟨r0, rmin, rmax⟩ (V3.distance (r1 (i, k, t)) r0)) ∧
      bonds = T.map fun p => ⟨p.1, r1 p, V3.sub (r1 p) r0, V3.distance (r1 p) r0⟩ := by
  intro r0 r1
  obtain ⟨l, hv, rfl⟩ := hb
  have hsymE : ∀ i, ((c.updateSymmetryPositions.sym.getD i []).map Site.xyz) = equivPos c i := fun i => rfl
  simp only [hsymE]
  have hcell : ∀ i, i < c.atoms.length → ∀ q ∈ equivPos c i, ∃ u, InCell u ∧ q = c.L.cartesian u := by
    intro i hi q hq
    unfold equivPos at hq
    obtain ⟨s, hs, rfl⟩ := List.mem_map.1 hq
    rw [List.getD_eq_getElem _ _ (by simpa using hi), List.getElem_map] at hs
    exact symOf_inCell c.L c.eps he c.ops hne _ s hs
  have hnn : ∀ i, i < c.atoms.length → equivPos c i ≠ [] := by
    intro i hi
    unfold equivPos
    rw [List.getD_eq_getElem _ _ (by simpa using hi), List.getElem_map]
    simpa using symOf_ne_nil c.L c.eps he c.ops _
  obtain ⟨v, hvc, hv0⟩ : ∃ v, InCell v ∧ r0 = c.L.cartesian v := by
    obtain ⟨q, qs, hq⟩ := List.exists_cons_of_ne_nil (hnn anchor ha)
    obtain ⟨u, hu, hqu⟩ := hcell anchor ha q (by rw [hq]; simp)
    exact ⟨u, hu, by simp only [r0, hq, List.headD_cons]; exact hqu⟩
  set ts := l.headD (0, 0, 0) :: l.tail with hts
  have hcov : ∀ i k t, i ∈ sel → k < (equivPos c i).length →
      GoodDist ⟨r0, rmin, rmax⟩ (V3.distance (r1 (i, k, t)) r0) → t ∈ ts := by
    intro i k t hi hk hd
    obtain ⟨u, hu, hq⟩ := hcell i (hin i hi) _ (List.getElem_mem hk)
    have : t ∈ l := by
      apply sphere_covers c.L h rmin rmax l hv u v hu hvc t
      rw [← hv0, ← hq]
      have e : (equivPos c i).getD k V3.zero = (equivPos c i)[k] := List.getD_eq_getElem _ _ hk
      simp only [r1, e] at hd
      exact hd
    cases l with
    | nil => simp at this
    | cons a l => simpa [hts] using this
  have hnd : ts.Nodup := by
    have := sphere_nodup _ _ _ (latPar_proper c.L h) l hv
    cases l with
    | nil => simp [hts]
    | cons a l => simpa [hts] using this
  refine ⟨(sel.flatMap fun i => (List.range (equivPos c i).length).flatMap fun k => ts.map fun t => (i, k, t)).filter
    fun p => decide (GoodDist ⟨r0, rmin, rmax⟩ (V3.distance (r1 p) r0)), ?_, ?_, ?_⟩
  · apply List.Nodup.filter
    rw [List.nodup_flatMap]
    constructor
    · intro i _
      rw [List.nodup_flatMap]
      refine ⟨fun k _ => hnd.map fun a b hab => by simpa using hab, List.nodup_range.imp ?_⟩
      intro a b hab
      simp only [Function.onFun, List.disjoint_left, List.mem_map]
      rintro x ⟨t, _, rfl⟩ ⟨t', _, hj⟩
      simp only [Prod.mk.injEq] at hj
      exact hab hj.2.1.symm
    · refine hsel.imp ?_
      intro a b hab
      simp only [Function.onFun, List.disjoint_left, List.mem_flatMap, List.mem_map]
      rintro x ⟨k, _, t, _, rfl⟩ ⟨k', _, t', _, hj⟩
      simp only [Prod.mk.injEq] at hj
      exact hab hj.1.symm
  · intro i k t
    simp only [List.mem_filter, List.mem_flatMap, List.mem_map, List.mem_range, Prod.mk.injEq, decide_eq_true_eq]
    constructor
    · rintro ⟨⟨i', hi', k', hk', t', ht', rfl, rfl, rfl⟩, hd⟩; exact ⟨hi', hk', hd⟩
    · rintro ⟨hi', hk', hd⟩
      exact ⟨⟨i, hi', k, hk', t, hcov i k t hi' hk' hd, rfl, rfl, rfl⟩, hd⟩
  · rw [cry_loop_exact _ _ _ _ (fun i hi => hnn i (hin i hi)), pts_cases, ← hts]
    rw [List.filter_flatMap, List.map_flatMap]
    congr 1
    funext i
    rw [List.filter_flatMap, List.map_flatMap]
    have hq : ∀ (F : V3 → List Bond), (equivPos c i).flatMap F
        = (List.range (equivPos c i).length).flatMap fun k => F ((equivPos c i).getD k V3.zero) := by
      intro F
      conv_lhs => rw [show equivPos c i = (List.range (equivPos c i).length).map
        fun k => (equivPos c i).getD k V3.zero from by
          apply List.ext_getElem
          · simp
          · intro n h1 h2
            simp only [List.getElem_map, List.getElem_range]
            rw [List.getD_eq_getElem _ _ h1]]
      rw [List.flatMap_map]
    rw [hq]
    congr 1
    funext k
    rw [List.flatMap_map]
    have : ∀ ts : List (ℤ × ℤ × ℤ), (ts.flatMap fun t => specBond ⟨r0, rmin, rmax⟩ i
        (V3.add (c.L.cartesian (tripVec t)) ((equivPos c i).getD k V3.zero)))
        = ((ts.map fun t => (i, k, t)).filter fun p =>
            decide (GoodDist ⟨r0, rmin, rmax⟩ (V3.distance (r1 p) r0))).map
          fun p => ⟨p.1, r1 p, V3.sub (r1 p) r0, V3.distance (r1 p) r0⟩ := by
      intro ts
      induction ts with
      | nil => rfl
      | cons t ts ih =>
        rw [List.flatMap_cons, List.map_cons, List.filter_cons, ih]
        have e : specBond ⟨r0, rmin, rmax⟩ i (V3.add (c.L.cartesian (tripVec t)) ((equivPos c i).getD k V3.zero))
            = if GoodDist ⟨r0, rmin, rmax⟩ (V3.distance (r1 (i, k, t)) r0) then
              [⟨i, r1 (i, k, t), V3.sub (r1 (i, k, t)) r0, V3.distance (r1 (i, k, t)) r0⟩] else [] := rfl
        rw [e]
        by_cases hg : GoodDist ⟨r0, rmin, rmax⟩ (V3.distance (r1 (i, k, t)) r0)
        · rw [if_pos hg, if_pos (by simpa using hg), List.map_cons]; rfl
        · rw [if_neg hg, if_neg (by simpa using hg)]; rfl
    exact this ts

/-- **C46** fails without symmetry operations: positions are not wrapped into the cell, so bonds to
an atom given outside the cell are missed.  Here a site at x = 10.5 has images at distance 1/2
from the site at the origin, but no bond up to 0.6 is found. -/
theorem crystal_p1_bug (L0 : Lat) (U : M3) (old : Cur) (bonds : List Bond)
    (hb : CrystalBonds ⟨[⟨⟨0, 0, 0⟩, U⟩, ⟨⟨21 / 2, 0, 0⟩, U⟩], unitCubic L0, [], 5 / 10 ^ 5, false, []⟩
      0 (6 / 10) 0 [1] old bonds) :
    bonds = [] ∧ V3.distance (V3.add ⟨21 / 2, 0, 0⟩ ((unitCubic L0).cartesian (tripVec (-10, 0, 0)))) ⟨0, 0, 0⟩ = 1 / 2 := by
  have hL := unitCubic_reachable L0
  constructor
  · obtain ⟨l, hv, rfl⟩ := hb
    have hsym : ∀ (x : ℝ), symOf (unitCubic L0) (5 / 10 ^ 5) [] ⟨⟨x, 0, 0⟩, U⟩
        = [⟨⟨x, 0, 0⟩, (unitCubic L0).cartesianMatrix ((unitCubic L0).fractionalMatrix U)⟩] := by
      intro x
      simp [symOf, expandLatticeAtom, expandLoop, toFractional, toCartesian, unitCubic_frac, unitCubic_cart, V3.smul]
    simp only [Crys.updateSymmetryPositions, List.map_cons, List.map_nil, hsym]
    rw [cry_loop_exact _ _ _ _ (by intro i hi; simp at hi; subst hi; simp), pts_cases]
    have hdiag : (unitCubic L0).ucMaxDiagonalLength ≤ 2 := by
      have : ∀ d ∈ ucDiagonals, (unitCubic L0).norm d ≤ 2 := by
        intro d hd
        rw [unitCubic_norm]
        apply Real.sqrt_le_iff.2
        simp only [ucDiagonals, List.mem_cons, List.not_mem_nil, or_false] at hd
        rcases hd with rfl | rfl | rfl | rfl <;> norm_num [V3.dot]
      unfold Lat.ucMaxDiagonalLength
      have hmem : ∀ (ds : List V3) (acc : ℝ × V3), (unitCubic L0).norm acc.2 ≤ 2 → (∀ d ∈ ds, (unitCubic L0).norm d ≤ 2) →
          (unitCubic L0).norm (ds.foldl (fun (acc : ℝ × V3) d =>
            if (unitCubic L0).norm d > acc.1 then ((unitCubic L0).norm d, d) else acc) acc).2 ≤ 2 := by
        intro ds
        induction ds with
        | nil => intro acc h _; exact h
        | cons d ds ih =>
          intro acc h1 h2
          apply ih _ _ fun d' hd' => h2 d' (by simp [hd'])
          beta_reduce
          split
          · exact h2 d (by simp)
          · exact h1
      apply hmem _ _ _ this
      rw [unitCubic_norm]
      show V3.norm V3.zero ≤ 2
      rw [V3.norm_zero]; norm_num
    rw [List.flatMap_cons, List.flatMap_nil, List.append_nil, List.flatMap_eq_nil_iff]
    intro q hq
    simp at hq
    subst hq
    rw [List.flatMap_eq_nil_iff]
    intro p hp
    obtain ⟨t, ht, rfl⟩ := List.mem_map.1 hp
    have hr : V3.norm (tripVec t) ≤ 26 / 10 := by
      have hcase : t ∈ l ∨ t = (0, 0, 0) := by
        cases l with
        | nil => right; simpa using ht
        | cons a l => left; simpa using ht
      rcases hcase with ht | rfl
      · have := (sphere_sound_partial _ _ _ (latPar_proper _ hL) l hv t.1 t.2.1 t.2.2 ht).1
        rw [radius_eq_norm _ hL, unitCubic_cart] at this
        have h2 : V3.norm (tripVec t) < 6 / 10 + (unitCubic L0).ucMaxDiagonalLength := this
        linarith
      · have : tripVec (0, 0, 0) = V3.zero := by simp [tripVec, V3.zero]
        rw [this, V3.norm_zero]; norm_num
    unfold specBond
    rw [if_neg]
    rintro ⟨_, h2, _⟩
    simp only [unitCubic_cart] at h2
    have h3 := le_trans (V3.abs_x_le _) h2
    have h4 := le_trans (V3.abs_x_le _) hr
    simp only [V3.sub, V3.add, tripVec, List.getD_cons_zero, List.map_cons, List.headD_cons] at h3 h4
    rw [abs_le] at h3 h4
    linarith [h3.2, h4.1]
  · rw [unitCubic_cart]
    have : V3.sub (V3.add ⟨21 / 2, 0, 0⟩ (tripVec (-10, 0, 0))) ⟨0, 0, 0⟩ = (⟨1 / 2, 0, 0⟩ : V3) := by
      ext <;> norm_num [V3.sub, V3.add, tripVec]
    unfold V3.distance
    rw [this]
    unfold V3.norm V3.dot
    rw [show (1 / 2 * (1 / 2) + 0 * 0 + 0 * 0 : ℝ) = (1 / 2) ^ 2 by norm_num, Real.sqrt_sq (by norm_num)]

/-! ### Non-vacuity -/

theorem unitCubic_small (L0 : Lat) : SmallEps (unitCubic L0) (5 / 10 ^ 5) := by
  have hL := good_of_reachable _ (unitCubic_reachable L0)
  have hr : (unitCubic L0).recbase = M3.one := by
    rw [hL.rec_eq, unitCubic_base]
    ext <;> norm_num [M3.inverse, M3.one, M3.det, V3.dot, V3.cross]
  unfold SmallEps
  rw [hr]
  have h1 : V3.norm M3.one.c0 = 1 := by simp [V3.norm, V3.dot, M3.one, M3.c0]
  have h2 : V3.norm M3.one.c1 = 1 := by simp [V3.norm, V3.dot, M3.one, M3.c1]
  have h3 : V3.norm M3.one.c2 = 1 := by simp [V3.norm, V3.dot, M3.one, M3.c2]
  rw [h1, h2, h3]; norm_num

/-- The hypotheses of `expand_partial` and `expand_exact_positions` hold for an atom at x = 1/4
with an inversion centre. -/
example (L0 : Lat) (U : M3) : ∃ reps : List SymOp, reps.Sublist inversionOps ∧
    (expandLatticeAtom (unitCubic L0) (5 / 10 ^ 5) inversionOps ⟨⟨1 / 4, 0, 0⟩, U⟩).map Site.xyz
      = reps.map (fun op => ucvFractional (opImage ⟨⟨1 / 4, 0, 0⟩, U⟩ op)) := by
  obtain ⟨reps, h1, _, _, h4⟩ := expand_exact_positions (unitCubic L0) (unitCubic_reachable L0) (5 / 10 ^ 5) (by norm_num)
    (unitCubic_small L0) inversionOps (by simp [inversionOps]) ⟨⟨1 / 4, 0, 0⟩, U⟩ (by
      have hi := inv_images (1 / 4) U
      simp only [inversionOps, List.map_cons, List.map_nil, List.cons.injEq, and_true] at hi
      obtain ⟨i1, i2⟩ := hi
      have hno : ∀ x : ℝ, (x = 1 / 2 ∨ x = -(1 / 2)) → ∀ k : ℤ, ¬ |x - k| ≤ 1 / 4 := by
        intro x hx k hk
        rw [abs_le] at hk
        have b1 : (2 * k : ℝ) < 2 * x + 1 := by linarith
        have b2 : 2 * x - 1 < (2 * k : ℝ) := by linarith
        rcases hx with rfl | rfl
        · have c1 : (2 * k : ℝ) < 2 := by linarith
          have c2 : (0 : ℝ) < 2 * k := by linarith
          have d1 : 2 * k < 2 := by exact_mod_cast c1
          have d2 : 0 < 2 * k := by exact_mod_cast c2
          omega
        · have c1 : (2 * k : ℝ) < 0 := by linarith
          have c2 : (-2 : ℝ) < 2 * k := by linarith
          have d1 : 2 * k < 0 := by exact_mod_cast c1
          have d2 : -2 < 2 * k := by exact_mod_cast c2
          omega
      have hfar : ∀ x y : ℝ, (x - y = 1 / 2 ∨ x - y = -(1 / 2)) → ¬ ModClose (unitCubic L0) (5 / 10 ^ 5) ⟨x, 0, 0⟩ ⟨y, 0, 0⟩ := by
        rintro x y hxy ⟨k, hk⟩
        rw [unitCubic_cart, unitCubic_cart, unitCubic_cart] at hk
        have h1 := le_trans (V3.abs_x_le _) hk
        simp only [V3.sub, V3.add, tripVec] at h1
        apply hno _ hxy k.1
        rw [show x - y - (k.1 : ℝ) = x - (y + k.1) by ring]
        linarith
      intro o ho o' ho' hc
      simp only [inversionOps, List.mem_cons, List.not_mem_nil, or_false] at ho ho'
      rcases ho with rfl | rfl <;> rcases ho' with rfl | rfl
      · rfl
      · rw [← image_eq_opImage, i1, i2] at hc; exact absurd hc (hfar _ _ (by norm_num))
      · rw [← image_eq_opImage, i1, i2] at hc; exact absurd hc (hfar _ _ (by norm_num))
      · rfl)
  exact ⟨reps, h1, h4⟩

/-- The hypotheses of `crystal_bonds_exact` are met. -/
example (L0 : Lat) (U : M3) (old : Cur) :
    let c : Crys := ⟨[⟨⟨1 / 4, 0, 0⟩, U⟩], unitCubic L0, inversionOps, 5 / 10 ^ 5, false, []⟩
    Reachable c.L ∧ 0 ≤ c.eps ∧ c.ops ≠ [] ∧ ∃ bonds, CrystalBonds c 0 3 0 [0] old bonds := by
  intro c
  refine ⟨unitCubic_reachable L0, by simp only [c]; norm_num, by simp [c, inversionOps], ?_⟩
  obtain ⟨l, hl, _⟩ := sphere_terminates (0 - c.L.ucMaxDiagonalLength) (3 + c.L.ucMaxDiagonalLength) (latPar c.L)
  exact ⟨_, l, hl, rfl⟩

end Verif.Crystal
