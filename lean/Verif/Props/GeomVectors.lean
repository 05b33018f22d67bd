import Verif.Props.BondHistory
import Verif.Props.CrystalExample
/-! C84: the vectors between sites of a structure object, from the coordinates of its atoms. -/
namespace Verif.Geo
open Verif.BondGen Verif.R3 Verif.Lattice Verif.Diff Verif.KindDiff Verif.Periodic Verif.Points
open Verif.PDFCache (act shift imageVec moved SpaceGroup ExactCrystal orbit_eq sites_exact Orbit fracPos)
open Verif.Crystal (equivPos SymOp ModClose SmallEps)

/-- The fractional coordinates of an atom in a lattice. -/
noncomputable def fracOf (L : Lat) (a : Atom) : V3 := L.fractional ⟨a.x, a.y, a.z⟩

/-- Atoms, operations and precision of a crystal: images that coincide within the precision coincide exactly modulo the lattice,
no image is within the tolerance below a cell face. -/
structure CleanSites (L : Lat) (ops : List SymOp) (eps : ℝ) (atoms : List Atom) : Prop where
  nonneg : 0 ≤ eps
  small : SmallEps L eps
  exact : ∀ a ∈ atoms, ∀ o ∈ ops, ∀ o' ∈ ops, ModClose L eps (act o (fracOf L a)) (act o' (fracOf L a)) →
    ∃ k, act o (fracOf L a) = V3.add (act o' (fracOf L a)) (tripVec k)
  clear : ∀ a ∈ atoms, ∀ op ∈ ops, ∀ n : ℤ, ∀ t ∈ [(act op (fracOf L a)).x, (act op (fracOf L a)).y, (act op (fracOf L a)).z],
    ¬ ((n : ℝ) - sqrtEps ≤ t ∧ t < n)

/-- C84. A finite structure: the vector between two sites is the difference of their coordinates. -/
theorem atomic_vectors (atoms : List Atom) (i j : ℕ) (a b : Atom) (hi : atoms[i]? = some a) (hj : atoms[j]? = some b) (v : V3) :
    (geom ⟨.atomic, atoms⟩).IsVec i j v ↔ v = ⟨(b.x : ℝ) - a.x, (b.y : ℝ) - a.y, (b.z : ℝ) - a.z⟩ := by
  show v = V3.sub (posOf atoms j) (posOf atoms i) ↔ _
  unfold posOf
  rw [hi, hj]
  rfl

/-- C84. A periodic structure: the differences plus all integer combinations of the lattice vectors. -/
theorem periodic_vectors (L : Lat) (atoms : List Atom) (i j : ℕ) (a b : Atom) (hi : atoms[i]? = some a) (hj : atoms[j]? = some b) (v : V3) :
    (geom ⟨.periodic L, atoms⟩).IsVec i j v ↔
      ∃ l m n : ℤ, v = V3.add ⟨(b.x : ℝ) - a.x, (b.y : ℝ) - a.y, (b.z : ℝ) - a.z⟩ (L.cartesian ⟨l, m, n⟩) := by
  show (∃ s, v = imageVec L (posOf atoms) i j s) ↔ _
  unfold imageVec posOf
  rw [hi, hj]
  constructor
  · rintro ⟨s, rfl⟩
    refine ⟨s.1, s.2.1, s.2.2, ?_⟩
    ext <;> simp [V3.add, V3.sub, atomPos, shift, tripVec] <;> ring
  · rintro ⟨l, m, n, rfl⟩
    refine ⟨(l, m, n), ?_⟩
    ext <;> simp [V3.add, V3.sub, atomPos, shift, tripVec] <;> ring

theorem cart_sub (L : Lat) (u v : V3) : L.cartesian (V3.sub u v) = V3.sub (L.cartesian u) (L.cartesian v) := by
  have h := PDFCache.cart_add L (V3.sub u v) v
  have e : V3.add (V3.sub u v) v = u := by ext <;> simp [V3.add, V3.sub]
  rw [e] at h
  rw [h]
  ext <;> simp [V3.add, V3.sub]

theorem crys_frac (L : Lat) (o : Sym) (atoms : List Atom) (i : ℕ) (a : Atom) (hi : atoms[i]? = some a) :
    fracPos (crysOf atoms L o) i = fracOf L a := by
  unfold fracPos fracOf crysOf
  simp only [List.map_map, List.getD_eq_getElem?_getD, List.getElem?_map, hi, Option.map_some, Option.getD_some]
  rfl

/-- C84. A crystal: with clean sites and the operations of a space group it is a regular geometry, and the vectors from site `i` to
site `j` are the differences of fractional coordinates between the images of atom `j` under all operations and the image of atom `i`
under the first operation, plus all lattice translations. -/
theorem crystal_vectors (L : Lat) (hL : Reachable L) (op0 : SymOp) (rest : List SymOp) (eps : ℝ) (atoms : List Atom)
    (hG : SpaceGroup L (op0 :: rest)) (hS : CleanSites L (op0 :: rest) eps atoms) :
    (geom ⟨.crystal L (op0 :: rest, eps), atoms⟩).Ok ∧
    ∀ i j a b, atoms[i]? = some a → atoms[j]? = some b → ∀ v,
      ((geom ⟨.crystal L (op0 :: rest, eps), atoms⟩).IsVec i j v ↔ ∃ op ∈ op0 :: rest, ∃ l m n : ℤ,
        v = L.cartesian (V3.add (V3.sub (act op (fracOf L b)) (act op0 (fracOf L a))) ⟨l, m, n⟩)) := by
  have hc : ExactCrystal (crysOf atoms L (op0 :: rest, eps)) := by
    have hat : ∀ i < (crysOf atoms L (op0 :: rest, eps)).atoms.length, ∃ a ∈ atoms, fracPos (crysOf atoms L (op0 :: rest, eps)) i = fracOf L a := by
      intro i hi
      have hi' : i < atoms.length := by simpa [crysOf] using hi
      exact ⟨atoms[i], List.getElem_mem hi', crys_frac L _ atoms i _ (List.getElem?_eq_getElem hi')⟩
    refine ⟨hL, hS.nonneg, hS.small, List.cons_ne_nil _ _, ?_, ?_⟩
    · intro i hi o ho o' ho' h
      obtain ⟨a, ha, e⟩ := hat i hi
      rw [e] at h ⊢
      exact hS.exact a ha o ho o' ho' h
    · intro i hi
      obtain ⟨a, ha, e⟩ := hat i hi
      rw [e]
      exact hS.clear a ha
  refine ⟨⟨hc, hG⟩, fun i j a b hi hj v => ?_⟩
  have hi' : i < (crysOf atoms L (op0 :: rest, eps)).atoms.length := by
    simpa [crysOf] using (List.getElem?_eq_some_iff.1 hi).1
  have hj' : j < (crysOf atoms L (op0 :: rest, eps)).atoms.length := by
    simpa [crysOf] using (List.getElem?_eq_some_iff.1 hj).1
  obtain ⟨reps, w, -, r0, -, -, r4⟩ := sites_exact _ hc i hi'
  have hhead : (equivPos (crysOf atoms L (op0 :: rest, eps)) i).headD V3.zero =
      L.cartesian (V3.add (act op0 (fracOf L a)) (tripVec (w op0))) := by
    unfold equivPos
    rw [r4, crys_frac L _ atoms i a hi]
    cases reps with
    | nil => cases r0
    | cons r l =>
      have : r = op0 := Option.some.inj r0
      subst this
      rfl
  have horb := fun x => orbit_eq _ hc j hj' x
  rw [crys_frac L _ atoms j b hj] at horb
  show (∃ q ∈ equivPos (crysOf atoms L (op0 :: rest, eps)) j, ∃ s,
    v = V3.sub (moved L q s) ((equivPos (crysOf atoms L (op0 :: rest, eps)) i).headD V3.zero)) ↔ _
  rw [hhead]
  constructor
  · rintro ⟨q, hq, s, rfl⟩
    obtain ⟨op, hop, k, e⟩ := (horb (moved L q s)).1 ⟨q, hq, s, rfl⟩
    refine ⟨op, hop, k.1 - (w op0).1, k.2.1 - (w op0).2.1, k.2.2 - (w op0).2.2, ?_⟩
    rw [e]
    show V3.sub (L.cartesian _) _ = _
    rw [← cart_sub]
    congr 1
    ext <;> simp [V3.add, V3.sub, tripVec] <;> ring
  · rintro ⟨op, hop, l, m, n, rfl⟩
    obtain ⟨q, hq, s, e⟩ := (horb (L.cartesian (V3.add (act op (fracOf L b)) (tripVec (l + (w op0).1, m + (w op0).2.1, n + (w op0).2.2))))).2
      ⟨op, hop, _, rfl⟩
    refine ⟨q, hq, s, ?_⟩
    have e' : moved L q s = L.cartesian (V3.add (act op (fracOf L b)) (tripVec (l + (w op0).1, m + (w op0).2.1, n + (w op0).2.2))) := e.symm
    rw [e', ← cart_sub]
    congr 1
    ext <;> simp [V3.add, V3.sub, tripVec] <;> ring

/-- A sodium atom at x = 1/4. -/
def exAtom : Atom := ⟨"Na", 1 / 4, 0, 0, 1, false, ⟨0, 0, 0, 0, 0, 0, 0, 0, 0⟩⟩

/-- The sodium atom in a unit cell with a mirror meets the hypotheses of `crystal_vectors`. -/
example (L0 : Lat) : Reachable (Crystal.unitCubic L0) ∧ SpaceGroup (Crystal.unitCubic L0) PDFCache.mirrorOps ∧
    CleanSites (Crystal.unitCubic L0) PDFCache.mirrorOps (5 / 10 ^ 5) [exAtom] := by
  have h := PDFCache.exCrys_exact L0 PDFCache.mirrorOps M3.one PDFCache.mem_mirrorOps
  have hf : fracPos (PDFCache.exCrys L0 PDFCache.mirrorOps M3.one) 0 = fracOf (Crystal.unitCubic L0) exAtom := by
    rw [PDFCache.exCrys_frac]
    unfold fracOf
    rw [Crystal.unitCubic_frac]
    simp [exAtom]
  refine ⟨h.lat, PDFCache.exCrys_group L0 _ PDFCache.mem_mirrorOps, h.eps, h.small, ?_, ?_⟩
  · intro a ha
    rw [List.mem_singleton.1 ha, ← hf]
    exact h.exact 0 Nat.one_pos
  · intro a ha
    rw [List.mem_singleton.1 ha, ← hf]
    exact h.clear 0 Nat.one_pos

end Verif.Geo
