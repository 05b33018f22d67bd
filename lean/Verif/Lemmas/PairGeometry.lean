import Verif.Props.BondHistory
/-! Sums over the vectors between two sites depend on the kind of the structure and the two atoms only. -/
namespace Verif.Geo
open Verif.BondGen Verif.Eval Verif.R3 Verif.Lattice Verif.Diff Verif.KindDiff
open Verif.Crystal (Crys equivPos)

theorem sum_congr_vec (g : Geometry) (i j : ℕ) (F G : V3 → ℝ) (h : ∀ v, g.IsVec i j v → F v = G v) : g.sum i j F = g.sum i j G := by
  cases g with
  | cluster n pos => exact h _ rfl
  | periodic n L xyz => exact finsum_congr fun s => h _ ⟨s, rfl⟩
  | crystal c =>
    show ((equivPos c j).map _).sum = ((equivPos c j).map _).sum
    congr 1
    refine List.map_congr_left fun q hq => ?_
    exact finsum_congr fun s => h _ ⟨q, hq, s, rfl⟩

theorem sum_mul_left (g : Geometry) (i j : ℕ) (a : ℝ) (F : V3 → ℝ) : g.sum i j (fun v => a * F v) = a * g.sum i j F := by
  have h : ∀ (a : ℝ) (f : ℤ × ℤ × ℤ → ℝ), (∑ᶠ s, a * f s) = a * ∑ᶠ s, f s := fun a f => (smul_finsum a f).symm
  cases g with
  | cluster n pos => rfl
  | periodic n L xyz => exact h _ _
  | crystal c =>
    simp only [Geometry.sum]
    rw [← List.sum_map_mul_left]
    congr 1
    refine List.map_congr_left fun q _ => h _ _

theorem vecs_sum (g : Geometry) (hok : g.Ok) (lo hi : ℝ) (i j : ℕ) (h1 : i < g.cnt) (h2 : j < g.cnt) (F : V3 → ℝ) :
    ((vecs g lo hi i j).map F).sum = g.sum i j (cut lo hi F) := by
  obtain ⟨gen, hgen⟩ := gen_exists g lo hi
  obtain ⟨bonds, hd⟩ := delivers g hok lo hi gen hgen
  rw [← hd.sum i h1 j h2 F, ← ((delivers_vecs hok hd i j h1 h2).map F).sum_eq, List.map_map]
  rfl

theorem vecs_out (g : Geometry) (lo hi : ℝ) (i j : ℕ) (h : ¬ (i < g.cnt ∧ j < g.cnt)) : vecs g lo hi i j = [] := by
  unfold vecs
  rw [dif_neg fun x => h x.2]

/-- Two sites of two structures of the same kind with the same atoms. -/
structure SamePair (x y : RStru) (i j i' j' : ℕ) : Prop where
  kind : x.kind = y.kind
  fst : x.atoms[i]? = y.atoms[i']?
  snd : x.atoms[j]? = y.atoms[j']?

theorem samePair_pos {x y : RStru} {i j i' j' : ℕ} (h : SamePair x y i j i' j') :
    posOf x.atoms i = posOf y.atoms i' ∧ posOf x.atoms j = posOf y.atoms j' := by
  unfold posOf
  rw [h.fst, h.snd]
  exact ⟨rfl, rfl⟩

theorem equivPos_atom (a b : List Atom) (L : Lat) (o : Sym) (i i' : ℕ) (h : a[i]? = b[i']?) :
    equivPos (crysOf a L o) i = equivPos (crysOf b L o) i' := by
  unfold equivPos crysOf
  simp only [List.map_map, List.getD_eq_getElem?_getD, List.getElem?_map]
  rw [h]

theorem sum_pair (x y : RStru) (i j i' j' : ℕ) (h : SamePair x y i j i' j') (F : V3 → ℝ) : (geom x).sum i j F = (geom y).sum i' j' F := by
  obtain ⟨p1, p2⟩ := samePair_pos h
  obtain ⟨k, a⟩ := x
  obtain ⟨k', b⟩ := y
  obtain ⟨hk, hi, hj⟩ := h
  simp only at hk hi hj p1 p2
  subst hk
  cases k with
  | atomic =>
    show F (V3.sub (posOf a j) (posOf a i)) = F (V3.sub (posOf b j') (posOf b i'))
    rw [p1, p2]
  | periodic L =>
    show (∑ᶠ s, F (PDFCache.imageVec L (posOf a) i j s)) = ∑ᶠ s, F (PDFCache.imageVec L (posOf b) i' j' s)
    unfold PDFCache.imageVec
    rw [p1, p2]
  | crystal L o =>
    show ((equivPos (crysOf a L o) j).map fun q => ∑ᶠ s : ℤ × ℤ × ℤ, F (V3.sub (PDFCache.moved L q s) ((equivPos (crysOf a L o) i).headD V3.zero))).sum =
      ((equivPos (crysOf b L o) j').map fun q => ∑ᶠ s : ℤ × ℤ × ℤ, F (V3.sub (PDFCache.moved L q s) ((equivPos (crysOf b L o) i').headD V3.zero))).sum
    rw [equivPos_atom a b L o i i' hi, equivPos_atom a b L o j j' hj]

theorem mult_atom (x y : RStru) (hk : x.kind = y.kind) (i i' : ℕ) (h : x.atoms[i]? = y.atoms[i']?) : (geom x).mult i = (geom y).mult i' := by
  obtain ⟨k, a⟩ := x
  obtain ⟨k', b⟩ := y
  simp only at hk h
  subst hk
  cases k with
  | atomic => rfl
  | periodic L => rfl
  | crystal L o =>
    show (equivPos (crysOf a L o) i).length = (equivPos (crysOf b L o) i').length
    rw [equivPos_atom a b L o i i' h]

/-- The structure of two atoms alone. -/
def pairStru (k : Kind Lat Sym) (a b : Option Atom) : RStru := ⟨k, a.toList ++ b.toList⟩

theorem samePair_of (x : RStru) (i j : ℕ) (hi : i < x.atoms.length) (hj : j < x.atoms.length) :
    SamePair x (pairStru x.kind x.atoms[i]? x.atoms[j]?) i j 0 1 := by
  have e1 := List.getElem?_eq_getElem hi
  have e2 := List.getElem?_eq_getElem hj
  rw [e1, e2]
  exact ⟨rfl, e1, e2⟩

end Verif.Geo
