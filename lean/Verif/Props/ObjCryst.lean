import Verif.Model.ObjCryst
import Verif.Props.CrystalExample
/-
C66: structures converted from ObjCryst crystals and molecules.
-/
set_option linter.unusedSectionVars false
namespace Verif.ObjCryst
open Verif.PDFGrid Verif.Eval Verif.BondGen Verif.R3 Verif.Lattice Verif.Points Verif.Periodic Verif.PDFCache
open Verif.Crystal (SymOp Crys equivPos)

/-! ### Specification -/

/-- An operation followed by a translation. -/
def shift (τ : V3) (op : SymOp) : SymOp := ⟨op.R, V3.add op.t τ⟩

/-- An operation followed by the inversion in the point `c`. -/
def invert (c : V3) (op : SymOp) : SymOp :=
  ⟨⟨V3.smul (-1) op.R.r0, V3.smul (-1) op.R.r1, V3.smul (-1) op.R.r2⟩, V3.sub (V3.smul 2 c) op.t⟩

/-- What the two do to fractional coordinates. -/
theorem act_shift (τ : V3) (op : SymOp) (u : V3) : act (shift τ op) u = V3.add (act op u) τ := by
  ext <;> simp only [act, shift, V3.add] <;> ring

theorem act_invert (c : V3) (op : SymOp) (u : V3) : act (invert c op) u = V3.sub c (V3.sub (act op u) c) := by
  ext <;> simp only [act, invert, V3.add, V3.sub, V3.smul, M3.mulVec, V3.dot] <;> ring

/-- The operations of the space group: every listed operation with every translation, and their images under the inversion for a
centrosymmetric group. -/
def Denotes (sg : SpaceGrp) (centro : Bool) (op : SymOp) : Prop :=
  ∃ o ∈ sg.ops, ∃ τ ∈ sg.trans, op = shift τ o ∨ (centro = true ∧ op = invert sg.center (shift τ o))

/-- `GetNbSymmetrics` is the order of the group modulo lattice translations. -/
def Valid (sg : SpaceGrp) (centro : Bool) : Prop :=
  sg.nbsym = sg.ops.length * sg.trans.length * (if centro then 2 else 1)

/-- The operations in the order of the code. -/
def allOps (ops : List SymOp) (trans : List V3) (center : V3) (centro : Bool) : List SymOp :=
  let base := trans.flatMap fun τ => ops.map (shift τ)
  base ++ if centro then base.map (invert center) else []

/-! ### The loops -/

theorem block_loop (f : SymOp → SymOp) (P rest : List SymOp) (g : List SymOp → Nat → List SymOp)
    (hg : ∀ rv i, g rv i = match rv[i]? with | some op => rv.set (P.length + i) (f op) | none => rv) (n : Nat)
    (hn : n ≤ P.length) (hr : n ≤ rest.length) :
    (List.range n).foldl g (P ++ rest) = P ++ ((P.take n).map f ++ rest.drop n) := by
  induction n with
  | zero => simp
  | succ n ih =>
    rw [List.range_succ, List.foldl_append, ih (by omega) (by omega), List.foldl_cons, List.foldl_nil, hg]
    rw [List.getElem?_append_left (by omega), List.getElem?_eq_getElem (by omega)]
    dsimp only
    rw [List.set_append_right _ _ (by omega), List.set_append_right _ _ (by simp)]
    have e1 : P.length + n - P.length - ((P.take n).map f).length = 0 := by
      rw [List.length_map, List.length_take]; omega
    rw [e1, List.drop_eq_getElem_cons (by omega : n < rest.length), List.set_cons_zero,
      List.take_succ_eq_append_getElem (by omega : n < P.length), List.map_append, List.append_assoc]
    rfl

theorem inplace_loop (f : SymOp → SymOp) (rv : List SymOp) (g : List SymOp → Nat → List SymOp)
    (hg : ∀ rv i, g rv i = match rv[i]? with | some op => rv.set i (f op) | none => rv) (n : Nat) (hn : n ≤ rv.length) :
    (List.range n).foldl g rv = (rv.take n).map f ++ rv.drop n := by
  induction n with
  | zero => simp
  | succ n ih =>
    have hl : ((rv.take n).map f).length = n := by rw [List.length_map, List.length_take]; omega
    rw [List.range_succ, List.foldl_append, ih (by omega), List.foldl_cons, List.foldl_nil, hg]
    rw [List.getElem?_append_right (by omega), hl, List.drop_eq_getElem_cons (by omega : n < rv.length)]
    rw [Nat.sub_self, List.getElem?_cons_zero]
    dsimp only
    rw [List.set_append_right _ _ (by omega), hl, Nat.sub_self, List.set_cons_zero,
      List.take_succ_eq_append_getElem (by omega : n < rv.length), List.map_append, List.append_assoc]
    rfl

theorem copyOps_eq (ops rv : List SymOp) (h : ops.length ≤ rv.length) : copyOps ops rv = ops ++ rv.drop ops.length := by
  have key : ∀ n, n ≤ ops.length → (List.range n).foldl
      (fun rv i => match ops[i]? with | some op => rv.set i op | none => rv) rv = ops.take n ++ rv.drop n := by
    intro n hn
    induction n with
    | zero => simp
    | succ n ih =>
      have hl : (ops.take n).length = n := by rw [List.length_take]; omega
      rw [List.range_succ, List.foldl_append, ih (by omega), List.foldl_cons, List.foldl_nil,
        List.getElem?_eq_getElem (by omega : n < ops.length)]
      dsimp only
      rw [List.set_append_right _ _ (by omega), hl, Nat.sub_self,
        List.drop_eq_getElem_cons (by omega : n < rv.length), List.set_cons_zero,
        List.take_succ_eq_append_getElem (by omega : n < ops.length), List.append_assoc]
      rfl
  unfold copyOps
  refine (key ops.length le_rfl).trans ?_
  rw [List.take_length]

/-- The translations that the loop really applies: the first one is added in place, so that all later ones get it too. -/
def effective : List V3 → List V3
  | [] => []
  | τ0 :: ts => τ0 :: ts.map (V3.add τ0)

theorem shift_shift (σ τ : V3) (op : SymOp) : shift τ (shift σ op) = shift (V3.add σ τ) op := by
  simp only [shift, V3.add, SymOp.mk.injEq, V3.mk.injEq, true_and]
  exact ⟨add_assoc _ _ _, add_assoc _ _ _, add_assoc _ _ _⟩

theorem length_blocks (ops : List SymOp) (ts : List V3) :
    (ts.flatMap fun τ => ops.map (shift τ)).length = ts.length * ops.length := by
  induction ts with
  | nil => simp
  | cons τ ts ih => rw [List.flatMap_cons, List.length_append, ih, List.length_map, List.length_cons]; ring

theorem transLoop_eq (ops : List SymOp) (trans : List V3) (htr : trans ≠ []) (rest : List SymOp)
    (h : ops.length * trans.length ≤ ops.length + rest.length) :
    transLoop ops.length trans (ops ++ rest) =
      ((effective trans).flatMap fun τ => ops.map (shift τ)) ++ rest.drop (ops.length * trans.length - ops.length) := by
  obtain ⟨τ0, ts, rfl⟩ := List.exists_cons_of_ne_nil htr
  have key : ∀ n, n ≤ ts.length → (List.range (n + 1)).foldl (fun rv nt => match (τ0 :: ts)[nt]? with
      | some sgt => (List.range ops.length).foldl (transStep ops.length sgt nt) rv
      | none => rv) (ops ++ rest) =
      ((effective (τ0 :: ts.take n)).flatMap fun τ => ops.map (shift τ)) ++ rest.drop (ops.length * n) := by
    intro n hn
    induction n with
    | zero =>
      rw [show List.range (0 + 1) = [0] from rfl, List.foldl_cons, List.foldl_nil, List.getElem?_cons_zero]
      dsimp only
      rw [inplace_loop (shift τ0) (ops ++ rest) _ (fun rv i => by
        unfold transStep
        rw [Nat.zero_mul, Nat.add_zero]
        cases rv[i]? <;> rfl) ops.length (by simp)]
      rw [List.take_left', List.drop_left'] <;> simp [effective]
    | succ n ih =>
      rw [List.range_succ, List.foldl_append, ih (by omega), List.foldl_cons, List.foldl_nil, List.getElem?_cons_succ,
        List.getElem?_eq_getElem (by omega : n < ts.length)]
      dsimp only
      generalize hP : ((effective (τ0 :: ts.take n)).flatMap fun τ => ops.map (shift τ)) = P
      have hlen : P.length = (n + 1) * ops.length := by
        rw [← hP, length_blocks]
        congr 1
        simp only [effective, List.length_cons, List.length_map, List.length_take]
        omega
      have hlow : ops.length * (n + 1 + 1) ≤ ops.length + rest.length :=
        le_trans (Nat.mul_le_mul_left _ (by rw [List.length_cons]; omega)) h
      have hr : ops.length ≤ (rest.drop (ops.length * n)).length := by
        rw [List.length_drop]
        have : ops.length * (n + 1 + 1) = ops.length * n + ops.length + ops.length := by ring
        omega
      rw [block_loop (shift ts[n]) P (rest.drop (ops.length * n)) _ (fun rv i => by
        unfold transStep
        rw [Nat.add_comm, hlen]
        cases rv[i]? <;> rfl) ops.length (by rw [hlen]; exact Nat.le_mul_of_pos_left _ (Nat.succ_pos n)) hr]
      have ht : P.take ops.length = ops.map (shift τ0) := by
        rw [← hP]
        simp only [effective, List.flatMap_cons]
        rw [List.take_left']
        rw [List.length_map]
      rw [ht, List.drop_drop, List.map_map, ← List.append_assoc]
      have e1 : ops.length * n + ops.length = ops.length * (n + 1) := by ring
      rw [e1]
      congr 1
      rw [← hP]
      simp only [effective, List.flatMap_cons]
      rw [List.take_succ_eq_append_getElem (by omega : n < ts.length), List.map_append, List.flatMap_append, List.append_assoc]
      congr 2
      simp only [List.map_cons, List.map_nil, List.flatMap_cons, List.flatMap_nil, List.append_nil]
      apply List.map_congr_left
      intro op _
      exact shift_shift _ _ _
  unfold transLoop
  refine (key ts.length le_rfl).trans ?_
  rw [List.take_length, List.length_cons]
  congr 2
  rw [Nat.mul_succ]
  omega

/-- What the code makes of any data: the first translation is added to all the others. -/
theorem fetch_general (sg : SpaceGrp) (centro : Bool) (hv : Valid sg centro) (htr : sg.trans ≠ []) (d : SymOp) :
    fetchSymmetryOperations sg d = allOps sg.ops (effective sg.trans) sg.center centro := by
  unfold Valid at hv
  have hle : sg.ops.length * sg.trans.length ≤ sg.nbsym := by
    rw [hv]; split <;> omega
  have hpos : 1 ≤ sg.trans.length := List.length_pos_of_ne_nil htr
  have h1 : sg.ops.length ≤ sg.ops.length * sg.trans.length := Nat.le_mul_of_pos_right _ hpos
  unfold fetchSymmetryOperations
  dsimp only
  rw [copyOps_eq _ _ (by rw [List.length_replicate]; omega)]
  rw [transLoop_eq _ _ htr _ (by rw [List.length_drop, List.length_replicate]; omega)]
  rw [List.drop_drop]
  have e1 : sg.ops.length + (sg.ops.length * sg.trans.length - sg.ops.length) = sg.ops.length * sg.trans.length := by omega
  rw [e1, List.drop_replicate]
  unfold allOps
  dsimp only
  generalize hP : ((effective sg.trans).flatMap fun τ => sg.ops.map (shift τ)) = P
  have hlen : P.length = sg.ops.length * sg.trans.length := by
    rw [← hP, length_blocks, Nat.mul_comm]
    congr 1
    cases sg.trans <;> simp [effective]
  by_cases hc : sg.ops.length * sg.trans.length < sg.nbsym
  · rw [if_pos hc]
    have hct : centro = true := by
      cases centro
      · simp at hv; omega
      · rfl
    subst hct
    rw [if_pos rfl] at hv
    rw [block_loop (invert sg.center) P _ _ (fun rv i => by
      unfold invStep
      rw [hlen]
      cases rv[i]? <;> rfl) _ (by omega) (by rw [List.length_replicate]; omega)]
    rw [← hlen, List.take_length, List.drop_replicate, hlen]
    have e2 : sg.nbsym - sg.ops.length * sg.trans.length - sg.ops.length * sg.trans.length = 0 := by omega
    rw [e2]
    simp
  · rw [if_neg hc]
    have e2 : sg.nbsym - sg.ops.length * sg.trans.length = 0 := by omega
    rw [e2]
    cases hcen : centro
    · simp
    · rw [hcen, if_pos rfl] at hv
      have : P = [] := by
        apply List.eq_nil_of_length_eq_zero
        omega
      rw [this]
      simp

/-- C66. When the first translation vector is zero, the operations of the adapter are all combinations of the listed operations,
the translations and the inversion, each once, `GetNbSymmetrics` in number. -/
theorem fetch_spec (sg : SpaceGrp) (centro : Bool) (hv : Valid sg centro) (h0 : sg.trans.head? = some V3.zero) (d : SymOp) :
    fetchSymmetryOperations sg d = allOps sg.ops sg.trans sg.center centro ∧
      (fetchSymmetryOperations sg d).length = sg.nbsym ∧
      ∀ op, op ∈ fetchSymmetryOperations sg d ↔ Denotes sg centro op := by
  have htr : sg.trans ≠ [] := by intro h; rw [h] at h0; cases h0
  have he : effective sg.trans = sg.trans := by
    cases h : sg.trans with
    | nil => rfl
    | cons τ ts =>
      rw [h] at h0
      simp only [List.head?_cons, Option.some.injEq] at h0
      subst h0
      change V3.zero :: ts.map (V3.add V3.zero) = _
      have hz : (V3.add V3.zero : V3 → V3) = fun τ => τ := by
        funext τ
        ext <;> simp [V3.add, V3.zero]
      rw [hz, List.map_id']
  have hf := fetch_general sg centro hv htr d
  rw [he] at hf
  refine ⟨hf, ?_, ?_⟩
  · rw [hf]
    unfold allOps Valid at *
    dsimp only
    rw [hv, List.length_append, length_blocks]
    cases centro
    · simp [Nat.mul_comm]
    · rw [if_pos rfl, if_pos rfl, List.length_map, length_blocks, Nat.mul_comm]; ring
  · intro op
    rw [hf]
    unfold allOps Denotes
    dsimp only
    cases centro
    · simp only [Bool.false_eq_true, if_false, List.append_nil, List.mem_flatMap, List.mem_map, false_and, or_false]
      constructor
      · rintro ⟨τ, hτ, o, ho, rfl⟩; exact ⟨o, ho, τ, hτ, rfl⟩
      · rintro ⟨o, ho, τ, hτ, rfl⟩; exact ⟨τ, hτ, o, ho, rfl⟩
    · simp only [if_true, List.mem_append, List.mem_flatMap, List.mem_map, true_and]
      constructor
      · rintro (⟨τ, hτ, o, ho, rfl⟩ | ⟨_, ⟨τ, hτ, o, ho, rfl⟩, rfl⟩)
        · exact ⟨o, ho, τ, hτ, Or.inl rfl⟩
        · exact ⟨o, ho, τ, hτ, Or.inr rfl⟩
      · rintro ⟨o, ho, τ, hτ, rfl | rfl⟩
        · exact Or.inl ⟨τ, hτ, o, ho, rfl⟩
        · exact Or.inr ⟨_, ⟨τ, hτ, o, ho, rfl⟩, rfl⟩

/-- The assumption on the first translation vector is needed: with another order of the same translations the second operation is
shifted twice, here back onto the first one modulo the lattice, and half of the atoms are lost. -/
theorem first_translation_bug (d : SymOp) :
    let half : V3 := ⟨1 / 2, 0, 0⟩
    let sg : SpaceGrp := ⟨[idOp], [half, V3.zero], 2, V3.zero⟩
    Valid sg false ∧ fetchSymmetryOperations sg d = [⟨M3.one, half⟩, ⟨M3.one, half⟩] ∧ Denotes sg false idOp := by
  intro half sg
  have hv : Valid sg false := by simp [Valid, sg]
  refine ⟨hv, ?_, ?_⟩
  · rw [fetch_general sg false hv (by simp [sg]) d]
    simp [allOps, effective, sg, shift, idOp, V3.add, V3.zero, half]
  · refine ⟨idOp, by simp [sg], V3.zero, by simp [sg], Or.inl ?_⟩
    simp [shift, idOp, V3.add, V3.zero]

/-! ### Atoms -/

/-- The components with a scattering power, in order. -/
def kept (cs : List Component) : List (Component × ScattPow) := cs.filterMap fun sc => sc.sp.map fun sp => (sc, sp)

theorem crystalAtoms_eq (L : Lat) (cs : List Component) :
    crystalAtoms L cs = (kept cs).map fun p => ⟨p.2.symbol, L.cartesian ⟨p.1.x, p.1.y, p.1.z⟩, p.1.occ, !p.2.isotropic,
      if !p.2.isotropic then L.cartesianMatrix (getUij p.2) else getUij p.2⟩ := by
  induction cs with
  | nil => rfl
  | cons sc cs ih =>
    unfold crystalAtoms kept
    cases h : sc.sp with
    | none => rw [List.filterMap_cons_none (by rw [h]; rfl)]; exact ih
    | some sp =>
      rw [List.filterMap_cons_some (b := (sc, sp)) (by rw [h]; rfl), List.map_cons]
      dsimp only
      rw [ih]
      rfl

/-- The mean square displacement of a component along the Cartesian direction `s` (times |s|²): `B/8π²` for an isotropic one, else
`Σ B_ij a*_i a*_j (a_i·s)(a_j·s) / 8π²`, for displacements `Σ u_i a_i` with `⟨u_i u_j⟩ = a*_i a*_j B_ij / 8π²`. -/
noncomputable def displacement (L : Lat) (sp : ScattPow) (s : V3) : ℝ :=
  if sp.isotropic then sp.biso / (8 * Real.pi ^ 2) * V3.dot s s
  else
    let p := L.ar * V3.dot L.base.r0 s
    let q := L.br * V3.dot L.base.r1 s
    let r := L.cr * V3.dot L.base.r2 s
    (sp.b11 * p * p + sp.b22 * q * q + sp.b33 * r * r + 2 * (sp.b12 * p * q + sp.b13 * p * r + sp.b23 * q * r)) / (8 * Real.pi ^ 2)

theorem uij_displacement (L : Lat) (h : Reachable L) (sp : ScattPow) (s : V3) :
    quad (if !sp.isotropic then L.cartesianMatrix (getUij sp) else getUij sp) s = displacement L sp s := by
  unfold displacement getUij
  cases sp.isotropic
  · simp only [Bool.not_false, if_true, Bool.false_eq_true, if_false]
    unfold Lat.cartesianMatrix
    rw [quad_conj, (good_of_reachable L h).norm_eq]
    generalize Real.pi = π
    simp only [quad, M3.mulVec, V3.dot, V3.smul]
    rw [show (8 * π ^ 2 : ℝ) = 8 * π * π by ring]
    simp only [div_eq_mul_inv]
    generalize (8 * π * π)⁻¹ = k
    ring
  · simp only [Bool.not_true, Bool.false_eq_true, if_false, if_true]
    generalize Real.pi = π
    simp only [quad, M3.mulVec, V3.dot]
    rw [show (8 * π ^ 2 : ℝ) = 8 * π * π by ring]
    simp only [div_eq_mul_inv]
    generalize (8 * π * π)⁻¹ = k
    ring

theorem uij_good (L : Lat) (sp : ScattPow) :
    GoodTensor (if !sp.isotropic then L.cartesianMatrix (getUij sp) else getUij sp) (!sp.isotropic) := by
  unfold GoodTensor getUij
  cases sp.isotropic
  · simp only [Bool.not_false, if_true, Bool.false_eq_true, if_false]
    refine ⟨?_, fun h => by cases h⟩
    unfold Lat.cartesianMatrix
    rw [M3.trans_mul, M3.trans_mul, M3.trans_trans, M3.mul_assoc]
    rfl
  · simp only [Bool.not_true, Bool.false_eq_true, if_false, if_true]
    exact ⟨rfl, fun _ => ⟨_, rfl⟩⟩

/-- C66. The atoms of the adapter are the components with a scattering power, in order: type, occupancy, isotropy and the
displacements are those of the component, the fractional coordinates in the adapter's lattice are those of the component. -/
theorem crystal_atoms (L0 : Lat) (d : SymOp) (x : Crystal) (h : Reachable (lattice L0 x)) :
    (createCrystal L0 d x).1.length = (kept x.components).length ∧
      ∀ (i : Nat) (p : Component × ScattPow), (kept x.components)[i]? = some p →
        ∃ a, (createCrystal L0 d x).1[i]? = some a ∧ a.atomtype = p.2.symbol ∧ a.occupancy = p.1.occ ∧
          a.anisotropy = !p.2.isotropic ∧ (lattice L0 x).fractional a.xyz = ⟨p.1.x, p.1.y, p.1.z⟩ ∧
          ∀ s, quad a.uij s = displacement (lattice L0 x) p.2 s := by
  unfold createCrystal
  dsimp only
  rw [crystalAtoms_eq]
  refine ⟨by rw [List.length_map], fun i p hp => ?_⟩
  rw [List.getElem?_map, hp]
  exact ⟨_, rfl, rfl, rfl, rfl, (cartesian_fractional _ h _).2, uij_displacement _ h p.2⟩

theorem molecule_atoms_eq (ms : List MolAtom) :
    createMolecule ms = (ms.filterMap fun m => m.sp.map fun sp => (m, sp)).map fun p =>
      ⟨p.2.symbol, ⟨p.1.x, p.1.y, p.1.z⟩, p.1.occ, !p.2.isotropic, getUij p.2⟩ := by
  induction ms with
  | nil => rfl
  | cons m ms ih =>
    unfold createMolecule
    cases h : m.sp with
    | none => rw [List.filterMap_cons_none (by rw [h]; rfl)]; exact ih
    | some sp =>
      rw [List.filterMap_cons_some (b := (m, sp)) (by rw [h]; rfl), List.map_cons]
      dsimp only
      rw [ih]

/-- C66 for molecules: Cartesian coordinates and tensors are taken over. -/
theorem molecule_atoms (ms : List MolAtom) (i : Nat) (p : MolAtom × ScattPow)
    (hp : (ms.filterMap fun m => m.sp.map fun sp => (m, sp))[i]? = some p) :
    ∃ a, (createMolecule ms)[i]? = some a ∧ a.atomtype = p.2.symbol ∧ a.occupancy = p.1.occ ∧
      a.anisotropy = (!p.2.isotropic) ∧ a.xyz = ⟨p.1.x, p.1.y, p.1.z⟩ ∧
      ∀ s, quad a.uij s * (8 * Real.pi ^ 2) = if p.2.isotropic then p.2.biso * V3.dot s s
        else p.2.b11 * s.x * s.x + p.2.b22 * s.y * s.y + p.2.b33 * s.z * s.z +
          2 * (p.2.b12 * s.x * s.y + p.2.b13 * s.x * s.z + p.2.b23 * s.y * s.z) := by
  rw [molecule_atoms_eq, List.getElem?_map, hp]
  refine ⟨_, rfl, rfl, rfl, rfl, rfl, fun s => ?_⟩
  have hk : 1 / (8 * Real.pi * Real.pi) * (8 * Real.pi ^ 2) = 1 := by
    have := Real.pi_ne_zero
    field_simp
  dsimp only
  unfold getUij
  cases p.2.isotropic
  · simp only [Bool.false_eq_true, if_false, quad, M3.mulVec, V3.dot]
    linear_combination (p.2.b11 * s.x * s.x + p.2.b22 * s.y * s.y + p.2.b33 * s.z * s.z +
      2 * (p.2.b12 * s.x * s.y + p.2.b13 * s.x * s.z + p.2.b23 * s.y * s.z)) * hk
  · simp only [if_true, quad, M3.mulVec, V3.dot]
    linear_combination p.2.biso * (s.x * s.x + s.y * s.y + s.z * s.z) * hk

/-! ### The crystal -/

theorem crystal_frac (L0 : Lat) (d : SymOp) (x : Crystal) (h : Reachable (lattice L0 x)) (i : Nat) (p : Component × ScattPow)
    (hp : (kept x.components)[i]? = some p) : fracPos (createCrystal L0 d x).2 i = ⟨p.1.x, p.1.y, p.1.z⟩ := by
  have e : ((createCrystal L0 d x).2.atoms.map Crystal.Site.xyz).getD i V3.zero = (lattice L0 x).cartesian ⟨p.1.x, p.1.y, p.1.z⟩ := by
    change (((crystalAtoms _ _).map fun a => (⟨a.xyz, a.uij⟩ : Crystal.Site)).map Crystal.Site.xyz).getD i V3.zero = _
    rw [crystalAtoms_eq, List.map_map, List.map_map, List.getD_eq_getElem?_getD, List.getElem?_map, hp]
    rfl
  unfold fracPos
  rw [e]
  exact (cartesian_fractional _ h _).2

theorem crystal_count (L0 : Lat) (d : SymOp) (x : Crystal) : (createCrystal L0 d x).2.atoms.length = (kept x.components).length := by
  change ((crystalAtoms _ _).map fun a => (⟨a.xyz, a.uij⟩ : Crystal.Site)).length = _
  rw [crystalAtoms_eq, List.length_map, List.length_map]

/-- C66. The atoms of the infinite crystal that the adapter stands for are the images of the components under the operations of the
space group and all lattice translations (the images may not be nearly but not exactly equal, C34). -/
theorem crystal_orbit (L0 : Lat) (d : SymOp) (x : Crystal) (centro : Bool) (hv : Valid x.sg centro)
    (h0 : x.sg.trans.head? = some V3.zero) (hc : ExactCrystal (createCrystal L0 d x).2) (i : Nat) (p : Component × ScattPow)
    (hp : (kept x.components)[i]? = some p) (v : V3) :
    v ∈ Orbit (lattice L0 x) (equivPos (createCrystal L0 d x).2 i) ↔
      ∃ op, Denotes x.sg centro op ∧ ∃ k : ℤ × ℤ × ℤ,
        v = (lattice L0 x).cartesian (V3.add (act op ⟨p.1.x, p.1.y, p.1.z⟩) (tripVec k)) := by
  have hi : i < (createCrystal L0 d x).2.atoms.length := by
    rw [crystal_count]; exact (List.getElem?_eq_some_iff.1 hp).1
  have ho := orbit_eq (createCrystal L0 d x).2 hc i hi v
  rw [crystal_frac L0 d x hc.lat i p hp] at ho
  refine ho.trans ?_
  constructor
  · rintro ⟨op, hop, k, hk⟩
    exact ⟨op, ((fetch_spec x.sg centro hv h0 d).2.2 op).1 hop, k, hk⟩
  · rintro ⟨op, hop, k, hk⟩
    exact ⟨op, ((fetch_spec x.sg centro hv h0 d).2.2 op).2 hop, k, hk⟩

theorem identity_first (sg : SpaceGrp) (centro : Bool) (hv : Valid sg centro) (h0 : sg.trans.head? = some V3.zero)
    (hid : sg.ops.head? = some idOp) (d : SymOp) : IdentityFirst (fetchSymmetryOperations sg d) := by
  rw [(fetch_spec sg centro hv h0 d).1]
  obtain ⟨o, os, ho⟩ : ∃ o os, sg.ops = o :: os := by
    cases h : sg.ops with
    | nil => rw [h] at hid; cases hid
    | cons o os => exact ⟨o, os, rfl⟩
  obtain ⟨τ, ts, ht⟩ : ∃ τ ts, sg.trans = τ :: ts := by
    cases h : sg.trans with
    | nil => rw [h] at h0; cases h0
    | cons o os => exact ⟨o, os, rfl⟩
  rw [ho] at hid
  rw [ht] at h0
  cases hid
  cases h0
  refine ⟨shift V3.zero idOp, ?_, 0, fun u => ?_⟩
  · unfold allOps
    rw [ho, ht]
    rfl
  · rw [act_shift, act_id, add_trip_zero]
    ext <;> simp [V3.add, V3.zero]

theorem balanced_all (L : Lat) (sg : SpaceGrp) (centro : Bool) (hb : ∀ op ∈ sg.ops, Balanced L op) (op : SymOp)
    (h : Denotes sg centro op) : Balanced L op := by
  obtain ⟨o, ho, τ, -, rfl | ⟨-, rfl⟩⟩ := h
  · exact hb o ho
  · have e := hb o ho
    unfold PDFCache.Balanced at e ⊢
    have neg : ∀ m : M3, (⟨V3.smul (-1) m.r0, V3.smul (-1) m.r1, V3.smul (-1) m.r2⟩ : M3) = M3.mul m ⟨⟨-1, 0, 0⟩, ⟨0, -1, 0⟩, ⟨0, 0, -1⟩⟩ := by
      intro m
      ext <;> simp [M3.mul, M3.vecMul, V3.dot, V3.smul, M3.c0, M3.c1, M3.c2]
    have neg' : ∀ m : M3, (⟨V3.smul (-1) m.r0, V3.smul (-1) m.r1, V3.smul (-1) m.r2⟩ : M3) = M3.mul ⟨⟨-1, 0, 0⟩, ⟨0, -1, 0⟩, ⟨0, 0, -1⟩⟩ m := by
      intro m
      ext <;> simp [M3.mul, M3.vecMul, V3.dot, V3.smul, M3.c0, M3.c1, M3.c2]
    change M3.mul (recDiag L) (⟨V3.smul (-1) o.R.r0, V3.smul (-1) o.R.r1, V3.smul (-1) o.R.r2⟩ : M3) =
      M3.mul (⟨V3.smul (-1) o.R.r0, V3.smul (-1) o.R.r1, V3.smul (-1) o.R.r2⟩ : M3) (recDiag L)
    conv_lhs => rw [neg, ← M3.mul_assoc, e]
    conv_rhs => rw [neg', M3.mul_assoc, ← e]
    rw [← e]
    generalize M3.mul (recDiag L) o.R = m
    ext <;> simp [M3.mul, M3.vecMul, V3.dot, M3.c0, M3.c1, M3.c2]

/-- `siteAnisotropy` of the adapter. -/
noncomputable def anisotropy (L0 : Lat) (d : SymOp) (x : Crystal) (i : Nat) : Bool :=
  (((createCrystal L0 d x).1[i]?).map Atom.anisotropy).getD false

theorem tensors_good (L0 : Lat) (d : SymOp) (x : Crystal) (i : Nat) (hi : i < (createCrystal L0 d x).2.atoms.length) :
    GoodTensor (((createCrystal L0 d x).2.atoms.map Crystal.Site.uij).getD i M3.one) (anisotropy L0 d x i) := by
  rw [crystal_count] at hi
  have hp : (kept x.components)[i]? = some (kept x.components)[i] := List.getElem?_eq_getElem hi
  have e1 : ((createCrystal L0 d x).2.atoms.map Crystal.Site.uij).getD i M3.one =
      if !(kept x.components)[i].2.isotropic then (lattice L0 x).cartesianMatrix (getUij (kept x.components)[i].2)
      else getUij (kept x.components)[i].2 := by
    change (((crystalAtoms _ _).map fun a => (⟨a.xyz, a.uij⟩ : Crystal.Site)).map Crystal.Site.uij).getD i M3.one = _
    rw [crystalAtoms_eq, List.map_map, List.map_map, List.getD_eq_getElem?_getD, List.getElem?_map, hp]
    rfl
  have e2 : anisotropy L0 d x i = !(kept x.components)[i].2.isotropic := by
    unfold anisotropy
    change ((crystalAtoms _ _)[i]?.map Atom.anisotropy).getD false = _
    rw [crystalAtoms_eq, List.getElem?_map, hp]
    rfl
  rw [e1, e2]
  exact uij_good _ _

/-- C66 end to end: getRDF of an ObjCryst crystal, with the identity as the first operation and zero as the first translation, is
the sum over the pairs of atoms of the full crystal, with widths from displacements that follow the symmetry. -/
theorem crystal_rdf (lookup : String → ℝ) (m : Mask.State) (sites : List PDFCache.Site) (L0 : Lat) (d : SymOp) (x : Crystal)
    (centro : Bool) (hv : Valid x.sg centro) (h0 : x.sg.trans.head? = some V3.zero) (hid : x.sg.ops.head? = some idOp)
    (hc : ExactCrystal (createCrystal L0 d x).2) (hG : SpaceGroup (lattice L0 x) (allOps x.sg.ops x.sg.trans x.sg.center centro))
    (hbal : ∀ op ∈ x.sg.ops, PDFCache.Balanced (lattice L0 x) op)
    (D : Nat → V3 → V3 → ℝ) (hD : Displacements (createCrystal L0 d x).2 (anisotropy L0 d x) D) (ω : ℝ → ℝ → ℝ)
    (hcnt : sites.length = (kept x.components).length)
    (p : Par ℝ) (ripples tails : ℝ) (ok : Ok p ripples tails) (hfit : ripples + tails ≤ p.maxext) (pf : Prof ℝ)
    (hb : ∀ i j a v w, i < (kept x.components).length → j < (kept x.components).length → a ∈ equivPos (createCrystal L0 d x).2 i →
      v ∈ Orbit (lattice L0 x) (equivPos (createCrystal L0 d x).2 j) →
      w = ω (D i a (V3.sub v a) + D j v (V3.sub v a)) (V3.distance v a) → 1 / 2 ^ 26 < V3.norm (V3.sub v a) →
      -tails ≤ pf.lo w ∧ pf.hi w ≤ tails ∧ ∀ t, (t ≤ pf.lo w ∨ pf.hi w ≤ t) → pf.y t w = 0)
    (gen : Limits → Gen Bond)
    (hgen : IsCrystalGen (createCrystal L0 d x).2 ((rlimits p ripples tails).clo * p.dr) ((rlimits p ripples tails).chi * p.dr)
      (gen (rlimits p ripples tails))) :
    let c := (createCrystal L0 d x).2
    let k := cacheOf lookup m.dflt m.inv sites
    let mask : Nat → Nat → Bool := fun i j => Mask.getPairMask m i j
    ∃ z, (evalGen p ripples tails pf (fun i j b => ω (c.msd (anisotropy L0 d x) i j b) b.distance) k
          (fun i => ((equivPos c i).length : ℝ)) mask sites.length gen).getRDF k.rdfScale = some z ∧
      z.length = (rgrid p.rmin p.rmax p.dr).length ∧
      ∀ (s : Nat) (n : ℤ), (rgrid p.rmin p.rmax p.dr)[s]? = some ((n : ℝ) * p.dr) →
        ((rlimits p ripples tails).clo = 0 ∨ p.rmin - ripples + p.dr ≤ (n : ℝ) * p.dr) →
        z[s]? = some (crystalRDF pf.y (kept x.components).length (factor lookup sites) mask (lattice L0 x) (equivPos c)
          (fun i j a v => ω (D i a (V3.sub v a) + D j v (V3.sub v a)) (V3.distance v a)) ((n : ℝ) * p.dr) /
          (PDFCache.atoms sites * fAverage lookup sites ^ 2)) := by
  have hf := fetch_spec x.sg centro hv h0 d
  have hn := crystal_count L0 d x
  have h := rdf_tensor lookup m sites (createCrystal L0 d x).2 hc (by
      change SpaceGroup (lattice L0 x) (fetchSymmetryOperations x.sg d); rw [hf.1]; exact hG)
    (fun op hop => balanced_all _ x.sg centro hbal op ((hf.2.2 op).1 hop)) (identity_first x.sg centro hv h0 hid d)
    (anisotropy L0 d x) (tensors_good L0 d x) D hD ω (by rw [hcnt, hn]) p ripples tails ok hfit pf
    (fun i j a v w hi hj => hb i j a v w (hn ▸ hi) (hn ▸ hj)) gen hgen
  rw [hn] at h
  exact h

/-! ### Cases -/

/-- Two listed operations, a centring and an inversion: eight operations. -/
example (d : SymOp) : let sg : SpaceGrp := ⟨[idOp, ⟨mirror, V3.zero⟩], [V3.zero, ⟨1 / 2, 1 / 2, 0⟩], 8, ⟨1 / 4, 0, 0⟩⟩
    Valid sg true ∧ sg.trans.head? = some V3.zero ∧ (fetchSymmetryOperations sg d).length = 8 := by
  intro sg
  have hv : Valid sg true := by simp [Valid, sg]
  exact ⟨hv, rfl, (fetch_spec sg true hv rfl d).2.1⟩

/-- A cubic crystal with a mirror plane, a dummy atom and an anisotropic atom at x = 1/4. -/
noncomputable def exCrystal : Crystal :=
  ⟨1, 1, 1, Real.pi / 2, Real.pi / 2, Real.pi / 2,
    [⟨0, 0, 0, 1, none⟩, ⟨1 / 4, 0, 0, 1, some ⟨"C", false, 0, 1, 1, 1, 1 / 2, 0, 0⟩⟩],
    ⟨[idOp, ⟨mirror, V3.zero⟩], [V3.zero], 2, V3.zero⟩⟩

theorem exCrystal_lattice (L0 : Lat) :
    lattice L0 exCrystal = Crystal.unitCubic (create L0 1 1 1 90 90 90) := by
  have h90 : 180 / Real.pi * (Real.pi / 2) = 90 := by
    have := Real.pi_ne_zero
    field_simp
    norm_num
  unfold lattice exCrystal
  dsimp only
  rw [h90]
  rfl

theorem exCrystal_valid : Valid exCrystal.sg false := by simp [Valid, exCrystal]

theorem exCrystal_ops (d : SymOp) : fetchSymmetryOperations exCrystal.sg d = mirrorOps := by
  rw [(fetch_spec _ false exCrystal_valid rfl d).1]
  simp [allOps, exCrystal, mirrorOps, shift, idOp, V3.add, V3.zero]

/-- The hypotheses of `crystal_rdf` and `crystal_orbit` on the crystal. -/
example (L0 : Lat) (d : SymOp) : Valid exCrystal.sg false ∧ exCrystal.sg.trans.head? = some V3.zero ∧
    exCrystal.sg.ops.head? = some idOp ∧ ExactCrystal (createCrystal L0 d exCrystal).2 ∧
    SpaceGroup (lattice L0 exCrystal) (allOps exCrystal.sg.ops exCrystal.sg.trans exCrystal.sg.center false) ∧
    (∀ op ∈ exCrystal.sg.ops, PDFCache.Balanced (lattice L0 exCrystal) op) ∧ (kept exCrystal.components).length = 1 := by
  have hl := exCrystal_lattice L0
  have ho := exCrystal_ops d
  refine ⟨exCrystal_valid, rfl, rfl, ?_, ?_, ?_, rfl⟩
  · let U := (lattice L0 exCrystal).cartesianMatrix (getUij ⟨"C", false, 0, 1, 1, 1, 1 / 2, 0, 0⟩)
    have h := exCrys_exact (create L0 1 1 1 90 90 90) mirrorOps U mem_mirrorOps
    have e : (createCrystal L0 d exCrystal).2 =
        { exCrys (create L0 1 1 1 90 90 90) mirrorOps U with
          sym := ((createCrystal L0 d exCrystal).2).sym, cached := true } := by
      have e1 : (createCrystal L0 d exCrystal).2.atoms = [⟨⟨1 / 4, 0, 0⟩, U⟩] := by
        have hk := Crystal.unitCubic_cart (create L0 1 1 1 90 90 90) ⟨1 / 4, 0, 0⟩
        rw [← hl] at hk
        change [(⟨(lattice L0 exCrystal).cartesian ⟨1 / 4, 0, 0⟩, _⟩ : Crystal.Site)] = _
        rw [hk]
        rfl
      have e2 : (createCrystal L0 d exCrystal).2.ops = mirrorOps := ho
      have e3 : (createCrystal L0 d exCrystal).2.L = Crystal.unitCubic (create L0 1 1 1 90 90 90) := hl
      have e4 : (createCrystal L0 d exCrystal).2.eps = 5 / 10 ^ 5 := rfl
      have e5 : (createCrystal L0 d exCrystal).2.cached = true := rfl
      generalize (createCrystal L0 d exCrystal).2 = c at *
      cases c
      simp only at e1 e2 e3 e4 e5
      subst e1 e2 e3 e4 e5
      rfl
    rw [e]
    exact ⟨h.lat, h.eps, h.small, h.ops, h.exact, h.clear⟩
  · rw [← (fetch_spec _ false exCrystal_valid rfl d).1, ho, hl]
    exact exCrys_group _ _ mem_mirrorOps
  · rw [hl]
    exact exCrys_balanced _ _ mem_mirrorOps

end Verif.ObjCryst
