import Verif.Props.SamePDF
import Verif.Props.Redescribe
/-! C97: concrete descriptions of the same atoms. -/
set_option linter.unusedSectionVars false
namespace Verif.Geo
open Verif.BondGen Verif.Eval Verif.R3 Verif.Lattice Verif.Periodic Verif.Diff Verif.KindDiff
open Verif.PDFCache (shift imageVec Orbit moved equivPos_apart moved_moved moved_zero)
open Verif.Crystal (Crys equivPos)

/-! ### Every crystal can be written out -/

theorem expanded_exists (c : Crys) (hok : (Geometry.crystal c).Ok) : ∃ (n' : ℕ) (xyz' : ℕ → V3) (σ : ℕ → ℕ), (∀ k < n', σ k < c.atoms.length) ∧
    (∀ k < n', ∃ q ∈ equivPos c (σ k), ∃ t, xyz' k = moved c.L q t) ∧
    ∀ j < c.atoms.length, ∀ q ∈ equivPos c j, ∃! k, k < n' ∧ σ k = j ∧ ∃ t, xyz' k = moved c.L q t := by
  let E : List (ℕ × V3) := (List.range c.atoms.length).flatMap fun j => (equivPos c j).map fun q => (j, q)
  have mem : ∀ j q, (j, q) ∈ E ↔ j < c.atoms.length ∧ q ∈ equivPos c j := by
    intro j q
    simp only [E, List.mem_flatMap, List.mem_range, List.mem_map, Prod.mk.injEq]
    constructor
    · rintro ⟨j', h1, q', h2, rfl, rfl⟩; exact ⟨h1, h2⟩
    · rintro ⟨h1, h2⟩; exact ⟨j, h1, q, h2, rfl, rfl⟩
  have apart : ∀ j < c.atoms.length, ∀ p ∈ equivPos c j, ∀ q ∈ equivPos c j, ∀ t, p = moved c.L q t → p = q := by
    intro j hj p hp q hq t hpq
    by_contra hne
    have hsym : Std.Symm fun p q : V3 => ∀ t, p ≠ moved c.L q t := by
      refine ⟨fun a b hab t hba => hab (-t) ?_⟩
      rw [hba, moved_moved, add_neg_cancel, moved_zero]
    exact List.Pairwise.forall (equivPos_apart c hok.1 j hj) hp hq hne t hpq
  have nd : E.Nodup := by
    refine List.nodup_flatMap.2 ⟨fun j hj => ?_, ?_⟩
    · refine List.Nodup.map (fun a b h => (Prod.mk.inj h).2) ?_
      refine (equivPos_apart c hok.1 j (List.mem_range.1 hj)).imp fun {a b} h => ?_
      have := h 0
      rwa [moved_zero] at this
    · refine List.Pairwise.imp ?_ List.nodup_range
      intro a b hab
      rw [Function.onFun, List.disjoint_left]
      rintro ⟨j, q⟩ h1 h2
      obtain ⟨_, _, e1⟩ := List.mem_map.1 h1
      obtain ⟨_, _, e2⟩ := List.mem_map.1 h2
      exact hab ((Prod.mk.inj e1).1.trans (Prod.mk.inj e2).1.symm)
  refine ⟨E.length, fun k => (E[k]?.map Prod.snd).getD V3.zero, fun k => (E[k]?.map Prod.fst).getD 0, ?_, ?_, ?_⟩
  · intro k hk
    simp only [List.getElem?_eq_getElem hk, Option.map_some, Option.getD_some]
    exact ((mem E[k].1 E[k].2).1 (List.getElem_mem hk)).1
  · intro k hk
    simp only [List.getElem?_eq_getElem hk, Option.map_some, Option.getD_some]
    exact ⟨E[k].2, ((mem E[k].1 E[k].2).1 (List.getElem_mem hk)).2, 0, (moved_zero _ _).symm⟩
  · intro j hj q hq
    obtain ⟨k, hk, e⟩ := List.mem_iff_getElem.1 ((mem j q).2 ⟨hj, hq⟩)
    refine ⟨k, ⟨hk, ?_, 0, ?_⟩, ?_⟩
    · simp only [List.getElem?_eq_getElem hk, Option.map_some, Option.getD_some, e]
    · simp only [List.getElem?_eq_getElem hk, Option.map_some, Option.getD_some, e, moved_zero]
    · rintro k' ⟨hk', e1, t, e2⟩
      simp only [List.getElem?_eq_getElem hk', Option.map_some, Option.getD_some] at e1 e2
      have hm := ((mem E[k'].1 E[k'].2).1 (List.getElem_mem hk')).2
      rw [e1] at hm
      have e3 := apart j hj _ hm q hq t e2
      have : E[k'] = E[k] := by rw [e, ← e1, ← e3]
      exact (List.Nodup.getElem_inj_iff nd).1 this

/-! ### A cluster moved and in another order -/

/-- The atom moved. -/
def moveAtom (a b c : ℚ) (t : Atom) : Atom := { t with x := t.x + a, y := t.y + b, z := t.z + c }

/-- The atoms of a cluster moved by (a, b, c) and in reverse order are the same atoms. -/
theorem cluster_reversed (l : List Atom) (a b c : ℚ) :
    SameStructure ⟨.atomic, l⟩ ⟨.atomic, (l.map (moveAtom a b c)).reverse⟩ (fun k => l.length - 1 - k) (rigid M3.one ⟨a, b, c⟩) where
  geo := by
    have hlen : (l.map (moveAtom a b c)).reverse.length = l.length := by simp
    refine same_cluster l.length _ _ M3.one ?_ _ _ ⟨?_, ?_⟩ _ ?_
    · intro v
      congr 1
      ext <;> simp [M3.mulVec, M3.one, V3.dot]
    · intro k hk; rw [hlen] at hk; omega
    · intro j hj
      refine ⟨l.length - 1 - j, ⟨by rw [hlen]; omega, by omega⟩, fun k hk => ?_⟩
      rw [hlen] at hk
      have := hk.2
      have := hk.1
      omega
    · intro k hk
      have hk : k < l.length := by rwa [hlen] at hk
      have hg : (l.map (moveAtom a b c)).reverse[k]? = some (moveAtom a b c l[l.length - 1 - k]) := by
        rw [List.getElem?_reverse (by simpa using hk), List.length_map, List.getElem?_map, List.getElem?_eq_getElem (by omega)]
        rfl
      show posOf _ k = rigid M3.one ⟨a, b, c⟩ (posOf l (l.length - 1 - k))
      unfold posOf
      rw [hg, List.getElem?_eq_getElem (by omega)]
      show (⟨((_ : ℚ) : ℝ), ((_ : ℚ) : ℝ), ((_ : ℚ) : ℝ)⟩ : V3) = rigid M3.one ⟨a, b, c⟩ ⟨((_ : ℚ) : ℝ), ((_ : ℚ) : ℝ), ((_ : ℚ) : ℝ)⟩
      ext <;> simp [rigid, M3.mulVec, M3.one, V3.dot, V3.add, moveAtom]
  atom := by
    intro k a' ha'
    have hk : k < l.length := by
      have := (List.getElem?_eq_some_iff.1 ha').1
      simpa using this
    refine ⟨l[l.length - 1 - k], List.getElem?_eq_getElem _, ?_⟩
    rw [List.getElem?_reverse (by simpa using hk), List.length_map, List.getElem?_map, List.getElem?_eq_getElem (by omega)] at ha'
    obtain rfl := Option.some.inj ha'
    exact ⟨rfl, rfl⟩

/-! ### A cell and its double -/

/-- A rectangular cell. -/
noncomputable def box (L0 : Lat) (a b c : ℝ) : Lat := (setLatBase L0 ⟨a, 0, 0⟩ ⟨0, b, 0⟩ ⟨0, 0, c⟩).1

theorem box_reachable (L0 : Lat) (a b c : ℝ) (ha : 1 ≤ a) (hb : 1 ≤ b) (hc : 1 ≤ c) : Reachable (box L0 a b c) ∧
    (box L0 a b c).base = ⟨⟨a, 0, 0⟩, ⟨0, b, 0⟩, ⟨0, 0, c⟩⟩ := by
  have d : M3.det ⟨⟨a, 0, 0⟩, ⟨0, b, 0⟩, ⟨0, 0, c⟩⟩ = a * b * c := by
    simp [M3.det, V3.dot, V3.cross]; try ring
  have h1 : 1 ≤ a * b * c := by
    have : 1 ≤ a * b := one_le_mul_of_one_le_of_one_le ha hb
    exact one_le_mul_of_one_le_of_one_le this hc
  have hn1 : ¬ |a * b * c| < 1 / 10 ^ 8 := by rw [abs_of_pos (by linarith), not_lt]; norm_num; linarith
  refine ⟨Reachable.createBase L0 _ _ _ ?_, ?_⟩
  · unfold setLatBase
    dsimp only
    rw [d, if_neg hn1, if_neg (by linarith)]
  · unfold box setLatBase
    dsimp only
    rw [d, if_neg hn1, if_neg (by linarith)]
    rfl

theorem box_shift (L0 : Lat) (a b c : ℝ) (ha : 1 ≤ a) (hb : 1 ≤ b) (hc : 1 ≤ c) (t : ℤ × ℤ × ℤ) :
    shift (box L0 a b c) t = ⟨t.1 * a, t.2.1 * b, t.2.2 * c⟩ := by
  unfold shift Lat.cartesian
  rw [(box_reachable L0 a b c ha hb hc).2]
  ext <;> simp [Periodic.tripVec, M3.vecMul, V3.dot, M3.c0, M3.c1, M3.c2]

theorem box_volume (L0 : Lat) (a b c : ℝ) (ha : 1 ≤ a) (hb : 1 ≤ b) (hc : 1 ≤ c) : (box L0 a b c).volume = a * b * c := by
  have d : M3.det ⟨⟨a, 0, 0⟩, ⟨0, b, 0⟩, ⟨0, 0, c⟩⟩ = a * b * c := by
    simp [M3.det, V3.dot, V3.cross]; try ring
  have h1 : 1 ≤ a * b * c := by
    have : 1 ≤ a * b := one_le_mul_of_one_le_of_one_le ha hb
    exact one_le_mul_of_one_le_of_one_le this hc
  have hn1 : ¬ |a * b * c| < 1 / 10 ^ 8 := by rw [abs_of_pos (by linarith), not_lt]; norm_num; linarith
  have n1 : V3.norm ⟨a, 0, 0⟩ = a := by
    unfold V3.norm V3.dot; simp; exact Real.sqrt_mul_self (by linarith)
  have n2 : V3.norm ⟨0, b, 0⟩ = b := by
    unfold V3.norm V3.dot; simp; exact Real.sqrt_mul_self (by linarith)
  have n3 : V3.norm ⟨0, 0, c⟩ = c := by
    unfold V3.norm V3.dot; simp; exact Real.sqrt_mul_self (by linarith)
  unfold Lat.volume box setLatBase
  dsimp only
  rw [d, if_neg hn1, if_neg (by linarith)]
  unfold Lat.updateMetrics Lat.updateRecNorm Lat.updateStandardBase Lat.updateReciprocal Lat.volumeNormal
  dsimp only
  rw [n1, n2, n3]
  simp [V3.dot, vnormSq]

theorem box_unsnapped (L0 : Lat) (a b c : ℝ) (ha : 1 ≤ a) (hb : 1 ≤ b) (hc : 1 ≤ c) (p : V3)
    (hp : (0 ≤ p.x ∧ p.x ≤ 3 / 4 * a) ∧ (0 ≤ p.y ∧ p.y ≤ 3 / 4 * b) ∧ 0 ≤ p.z ∧ p.z ≤ 3 / 4 * c) : Unsnapped (box L0 a b c) p := by
  obtain ⟨hr, hb'⟩ := box_reachable L0 a b c ha hb hc
  have e : (box L0 a b c).fractional p = ⟨p.x / a, p.y / b, p.z / c⟩ := by
    have : p = (box L0 a b c).cartesian ⟨p.x / a, p.y / b, p.z / c⟩ := by
      unfold Lat.cartesian
      rw [hb']
      ext <;> simp [M3.vecMul, V3.dot, M3.c0, M3.c1, M3.c2] <;> field_simp
    conv_lhs => rw [this]
    exact (cartesian_fractional _ hr _).2
  have key : ∀ x l : ℝ, 1 ≤ l → 0 ≤ x ∧ x ≤ 3 / 4 * l → ∀ n : ℤ, ¬ ((n : ℝ) - sqrtEps ≤ x / l ∧ x / l < n) := by
    rintro x l hl ⟨h1, h2⟩ n ⟨h3, h4⟩
    have h5 : 0 ≤ x / l := div_nonneg h1 (by linarith)
    have h6 : x / l ≤ 3 / 4 := by rw [div_le_iff₀ (by linarith)]; exact h2
    have h7 : (0 : ℝ) < n := lt_of_le_of_lt h5 h4
    have h8 : (1 : ℝ) ≤ n := by exact_mod_cast Int.add_one_le_iff.2 (by exact_mod_cast h7 : (0 : ℤ) < n)
    have h9 : sqrtEps < 1 / 4 := by norm_num [sqrtEps]
    linarith
  intro n t ht
  rw [e] at ht
  simp only [List.mem_cons, List.not_mem_nil, or_false] at ht
  rcases ht with rfl | rfl | rfl
  · exact key _ _ ha hp.1 n
  · exact key _ _ hb hp.2.1 n
  · exact key _ _ hc hp.2.2 n

/-- Na at the origin and Cl in the middle of the edge of a cell of 4 × 3 × 3. -/
noncomputable def exCell (L0 : Lat) : RStru := ⟨.periodic (box L0 4 3 3), [⟨"Na", 0, 0, 0, 1, false, ⟨1 / 200, 0, 0, 0, 1 / 200, 0, 0, 0, 1 / 200⟩⟩,
  ⟨"Cl", 2, 0, 0, 1 / 2, false, ⟨1 / 100, 0, 0, 0, 1 / 100, 0, 0, 0, 1 / 100⟩⟩]⟩

/-- The same atoms in the double cell. -/
noncomputable def exDouble (L0 : Lat) : RStru := ⟨.periodic (box L0 8 3 3), [⟨"Na", 0, 0, 0, 1, false, ⟨1 / 200, 0, 0, 0, 1 / 200, 0, 0, 0, 1 / 200⟩⟩,
  ⟨"Cl", 2, 0, 0, 1 / 2, false, ⟨1 / 100, 0, 0, 0, 1 / 100, 0, 0, 0, 1 / 100⟩⟩,
  ⟨"Na", 4, 0, 0, 1, false, ⟨1 / 200, 0, 0, 0, 1 / 200, 0, 0, 0, 1 / 200⟩⟩,
  ⟨"Cl", 6, 0, 0, 1 / 2, false, ⟨1 / 100, 0, 0, 0, 1 / 100, 0, 0, 0, 1 / 100⟩⟩]⟩

theorem exDouble_copies : (∀ k < 4, k % 2 < 2) ∧ (∀ k < 4, k / 2 < 2) ∧
    ∀ j < 2, ∀ u : ℕ × ℕ × ℕ, u.1 < 2 → u.2.1 < 1 → u.2.2 < 1 → ∃! k, k < 4 ∧ k % 2 = j ∧ (k / 2, 0, 0) = u := by
  refine ⟨by omega, by omega, ?_⟩
  rintro j hj ⟨u, v, w⟩ h1 h2 h3
  dsimp only at h1 h2 h3
  refine ⟨2 * u + j, ⟨by omega, by omega, ?_⟩, ?_⟩
  · rw [Prod.mk.injEq, Prod.mk.injEq]; omega
  · rintro k ⟨h4, h5, h6⟩
    rw [Prod.mk.injEq, Prod.mk.injEq] at h6
    omega

theorem exDouble_same (L0 : Lat) : SameStructure (exCell L0) (exDouble L0) (fun k => k % 2) id ∧ Cells (exCell L0) (exDouble L0) (fun k => k % 2) 2 ∧
    PDFHist.SameDisplacements (exCell L0) (exDouble L0) (fun k => k % 2) id ∧ PDFHist.numberDensity (exDouble L0) = PDFHist.numberDensity (exCell L0) := by
  obtain ⟨c1, c2, c3⟩ := exDouble_copies
  have hs : SameStructure (exCell L0) (exDouble L0) (fun k => k % 2) id := by
    refine ⟨?_, ?_⟩
    · refine same_supercell 2 4 (box L0 4 3 3) (box L0 8 3 3) (box_reachable L0 4 3 3 (by norm_num) (by norm_num) (by norm_num)).1 (2, 1, 1)
        ⟨by norm_num, by norm_num, by norm_num⟩ ?_ _ _ (fun k => k % 2) (fun k => (k / 2, 0, 0)) c1 ?_ c3 ?_
      · intro t
        rw [box_shift L0 8 3 3 (by norm_num) (by norm_num) (by norm_num), box_shift L0 4 3 3 (by norm_num) (by norm_num) (by norm_num)]
        unfold times
        ext <;> push_cast <;> ring
      · exact fun k hk => ⟨c2 k hk, by norm_num, by norm_num⟩
      · intro k hk
        unfold moved
        rw [box_shift L0 4 3 3 (by norm_num) (by norm_num) (by norm_num)]
        unfold cellOf posOf
        have : k = 0 ∨ k = 1 ∨ k = 2 ∨ k = 3 := by omega
        rcases this with rfl | rfl | rfl | rfl <;>
        · simp only [exCell, exDouble, List.getElem?_cons_zero, List.getElem?_cons_succ, Nat.reduceMod, Nat.reduceDiv]
          ext <;> simp [atomPos, V3.add] <;> try norm_num
    · intro k a' h
      have hk : k < 4 := (List.getElem?_eq_some_iff.1 h).1
      have : k = 0 ∨ k = 1 ∨ k = 2 ∨ k = 3 := by omega
      rcases this with rfl | rfl | rfl | rfl <;> obtain rfl := Option.some.inj h <;> exact ⟨_, rfl, rfl, rfl⟩
  have hc : Cells (exCell L0) (exDouble L0) (fun k => k % 2) 2 := by
    refine ⟨by norm_num, fun j hj => ?_⟩
    have hj : j < 2 := hj
    have := count_supercell (σ := fun k => k % 2) (n := 2) (n' := 4) (2, 1, 1) (fun k => (k / 2, 0, 0)) (fun k hk => ⟨c2 k hk, by norm_num, by norm_num⟩) c3 j hj
    have e : ∀ k, (geom (exDouble L0)).mult k = 1 := fun _ => rfl
    have e' : (geom (exCell L0)).mult j = 1 := rfl
    simp only [e, e', Nat.cast_one, Finset.sum_const, nsmul_eq_mul, mul_one]
    show (((Finset.range 4).filter fun k => k % 2 = j).card : ℝ) = 2
    rw [this]
    norm_num
  refine ⟨hs, hc, ?_, ?_⟩
  · intro k a' h
    have hk : k < 4 := (List.getElem?_eq_some_iff.1 h).1
    have : k = 0 ∨ k = 1 ∨ k = 2 ∨ k = 3 := by omega
    rcases this with rfl | rfl | rfl | rfl <;> obtain rfl := Option.some.inj h <;> exact ⟨_, rfl, rfl, rfl, fun _ _ => rfl⟩
  · refine PDFHist.density_same hs hc (fun y => match y.kind with | .atomic => 0 | .periodic L => L.volume | .crystal L _ => L.volume) ?_ ?_
    · intro y hy
      simp only [List.mem_cons, List.not_mem_nil, or_false] at hy
      rcases hy with rfl | rfl <;> rfl
    · show (box L0 8 3 3).volume = 2 * (box L0 4 3 3).volume
      rw [box_volume L0 8 3 3 (by norm_num) (by norm_num) (by norm_num), box_volume L0 4 3 3 (by norm_num) (by norm_num) (by norm_num)]
      norm_num

end Verif.Geo

namespace Verif.PDFHist
open Verif.Eval Verif.Diff Verif.KindDiff Verif.History Verif.PDFGrid Verif.PDFCache Verif.R3 Verif.Lattice Verif.Geo

/-- The atoms of a cluster keep their displacements, anisotropic ones too. -/
theorem cluster_displaced (l : List Atom) (a b c : ℚ) :
    SameDisplacements ⟨.atomic, l⟩ ⟨.atomic, (l.map (moveAtom a b c)).reverse⟩ (fun k => l.length - 1 - k) (rigid M3.one ⟨a, b, c⟩) := by
  intro k a' h
  · have hk : k < l.length := by
      have := (List.getElem?_eq_some_iff.1 h).1
      simpa using this
    have hg : (l.map (moveAtom a b c)).reverse[k]? = some (moveAtom a b c l[l.length - 1 - k]) := by
      rw [List.getElem?_reverse (by simpa using hk), List.length_map, List.getElem?_map, List.getElem?_eq_getElem (by omega)]
      rfl
    obtain rfl := Option.some.inj (hg.symm.trans h)
    refine ⟨_, List.getElem?_eq_getElem (show l.length - 1 - k < l.length by omega), rfl, rfl, fun p q => ?_⟩
    rw [along_same (a := moveAtom a b c _) (b := l[l.length - 1 - k]) rfl rfl]
    congr 1
    ext <;> simp [rigid, M3.mulVec, M3.one, V3.dot, V3.add, V3.sub]

theorem exCells_ok (L0 : Lat) : ExStru (fun k => ∃ L, k = .periodic L) (exCell L0) ∧ ExStru (fun k => ∃ L, k = .periodic L) (exDouble L0) := by
  have r1 := (box_reachable L0 4 3 3 (by norm_num) (by norm_num) (by norm_num)).1
  have r2 := (box_reachable L0 8 3 3 (by norm_num) (by norm_num) (by norm_num)).1
  have al : ∀ a : Atom, a.anisotropy = false → Peak.Aligned (peakSite a) := fun a h h' => by
    have h' : a.anisotropy = true := h'
    rw [h] at h'
    cases h'
  refine ⟨⟨⟨_, rfl⟩, ⟨r1, ?_⟩, ?_, ?_⟩, ⟨⟨_, rfl⟩, ⟨r2, ?_⟩, ?_, ?_⟩⟩
  · intro i
    refine box_unsnapped L0 4 3 3 (by norm_num) (by norm_num) (by norm_num) _ ?_
    rcases i with _ | _ | i <;> simp only [exCell, posOf, List.getElem?_cons_zero, List.getElem?_cons_succ, List.getElem?_nil] <;> norm_num [atomPos, V3.zero]
  · intro a ha
    fin_cases ha <;> exact al _ rfl
  · intro a ha
    fin_cases ha <;> norm_num
  · intro i
    refine box_unsnapped L0 8 3 3 (by norm_num) (by norm_num) (by norm_num) _ ?_
    rcases i with _ | _ | _ | _ | i <;> simp only [exDouble, posOf, List.getElem?_cons_zero, List.getElem?_cons_succ, List.getElem?_nil] <;> norm_num [atomPos, V3.zero]
  · intro a ha
    fin_cases ha <;> exact al _ rfl
  · intro a ha
    fin_cases ha <;> norm_num

/-- The cell and its double, with Debye-Waller widths and cropped peaks: the RDFs are the same. -/
example (s : Sorter) (hs : SortSpec s) (L0 : Lat) : ∃ (k : Cls Unit Bool) (z : List ℝ),
    IsLibraryCalculator s (fun _ => exLib (20, true)) (fun b => if b then exDouble L0 else exCell L0) k ∧
    getRDF k (pcEval k (pcInit k () false 0 1) false) = some z ∧ getRDF k (pcEval k (pcInit k () true 0 1) true) = some z := by
  let stru : Bool → RStru := fun b => if b then exDouble L0 else exCell L0
  have hx : ∀ b, ExStru (fun k => ∃ L, k = .periodic L) (stru b) := by
    intro b
    cases b
    · exact (exCells_ok L0).1
    · exact (exCells_ok L0).2
  obtain ⟨k, hk, -⟩ := library_exists s (fun _ : Unit => exLib (20, true)) stru (fun _ => false)
  have hu := exLib_usual (fun k => ∃ L, k = .periodic L) (fun a b ⟨L, ha⟩ ⟨L', hb⟩ => by rw [ha, hb]; trivial) (fun _ : Unit => (20, true)) stru hx k
  obtain ⟨h1, h2, h3, h4⟩ := exDouble_same L0
  obtain ⟨z, z', a1, a2, a3, a4⟩ := rdf_redescribed_partial (ρ := id) (N := 2) (σ := fun k => k % 2) s hs (fun _ => exLib (20, true)) stru k hk hu () () false true [] []
    (fun pre f cl r post e => by simp at e) (fun pre f cl r post e => by simp at e) rfl rfl false true rfl h1 h2 h3 (fun _ _ _ _ => rfl)
  refine ⟨k, z, hk, a1, ?_⟩
  have : z' = z := by
    refine List.ext_getElem? fun m => ?_
    by_cases hm : m < (rgrid (exLib (20, true)).p.rmin (exLib (20, true)).p.rmax (exLib (20, true)).p.rstep).length
    · obtain ⟨n, -, hn⟩ := List.mem_map.1 (List.getElem_mem hm)
      refine a4 m n ?_ (Or.inl ?_) (Or.inl ⟨_, rfl⟩)
      · rw [List.getElem?_eq_getElem hm, ← hn]
      · have := ripples_nonneg (exLib (20, true)).p
        have e : (exLib (20, true)).p.rmin = 0 := rfl
        have : (exLib (20, true)).p.rmin - (exLib (20, true)).p.ripples ≤ 0 := by rw [e]; linarith
        exact this
    · obtain ⟨y, y1, y2, -⟩ := library_rdf_partial s hs (fun _ => exLib (20, true)) stru k hk hu () false [] (fun pre f cl r post e => by simp at e) rfl false
      rw [a1] at y1
      obtain rfl := Option.some.inj y1
      rw [List.getElem?_eq_none (by omega), List.getElem?_eq_none (by omega)]
  rw [← this]
  exact a2

end Verif.PDFHist

namespace Verif.OlpHist
open Verif.BondGen Verif.Eval Verif.R3 Verif.Lattice Verif.Diff Verif.KindDiff Verif.Geo Verif.Overlap Verif.AssocMap
open Verif.BVHist (exIons exGen)

/-- A pair of ions and the same pair moved and in the other order. -/
example (num : List Char → Option ℝ) (heap : ℕ → RTable) : let x := exIons; let x' : RStru := ⟨.atomic, (exIons.atoms.map (moveAtom 1 2 3)).reverse⟩
    let s := run num (new heap) [.eval x [] [] (exGen x)]
    let s' := run num (new heap) [.eval x' [] [] (exGen x')]
    (s'.siteSquareOverlaps x')[0]? = (s.siteSquareOverlaps x)[1]? ∧ s'.totalSquareOverlap x' = 1 * s.totalSquareOverlap x := by
  intro x x' s s'
  have hs : SameStructure x x' (fun k => 2 - 1 - k) _ := cluster_reversed exIons.atoms 1 2 3
  have hp : Proper num heap [] := ⟨fun pre op post h => by simp at h, fun pre a b c post h => by simp at h, fun pre a b c d post h => by simp at h⟩
  have hv : (Mask.Op.stru [] [] []).Valid (run num (new heap) []).mask := ⟨List.Perm.refl _, List.Perm.refl _⟩
  have h := overlap_redescribed num heap [] hp rfl hs (fun i hi k hk => by
      exact hs.mask (maskNow []) (Or.inr rfl) i k hi hk) trivial (by decide) [] [] hv (exGen x) (fun lo hi => (gen_exists _ _ _).choose_spec)
    trivial (by decide) [] [] hv (exGen x') (fun lo hi => (gen_exists _ _ _).choose_spec)
  refine ⟨(h.1 0 (by decide)).1, (h.2 1 ⟨by norm_num, fun j hj => ?_⟩).1⟩
  have hj : j < 2 := hj
  have e : ∀ k, (geom x').mult k = 1 := fun _ => rfl
  have e' : (geom x).mult j = 1 := rfl
  simp only [e, e', Nat.cast_one, Finset.sum_const, nsmul_eq_mul, mul_one]
  show (((Finset.range 2).filter fun k => 2 - 1 - k = j).card : ℝ) = 1
  have : j = 0 ∨ j = 1 := by omega
  rcases this with rfl | rfl
  · exact_mod_cast (by decide : ((Finset.range 2).filter fun k => 2 - 1 - k = 0).card = 1)
  · exact_mod_cast (by decide : ((Finset.range 2).filter fun k => 2 - 1 - k = 1).card = 1)

end Verif.OlpHist

namespace Verif.BVHist
open Verif.BondGen Verif.Eval Verif.R3 Verif.Lattice Verif.Diff Verif.KindDiff Verif.Geo Verif.AssocMap
open Verif.BV hiding Op

/-- The same for bond valence sums. -/
example (heap : ℕ → Table ℝ) : let std : SetBV ℝ := [(⟨"Na".toList, 1, "Cl".toList, -1⟩, ⟨2, 1, []⟩)]
    let x := exIons; let x' : RStru := ⟨.atomic, (exIons.atoms.map (moveAtom 1 2 3)).reverse⟩
    let s := run (exEnv std) (new heap) [.eval x [] [] (exGen x)]
    let s' := run (exEnv std) (new heap) [.eval x' [] [] (exGen x')]
    s'.value[0]? = s.value[1]? := by
  intro std x x' s s'
  have hs : SameStructure x x' (fun k => 2 - 1 - k) _ := cluster_reversed exIons.atoms 1 2 3
  have hp : Proper (exEnv std) heap [] := ⟨fun pre op post h => by simp at h, fun pre a b c post h => by simp at h, fun pre a b c d post h => by simp at h⟩
  have hv : (Mask.Op.stru [] [] []).Valid (run (exEnv std) (new heap) []).mask := ⟨List.Perm.refl _, List.Perm.refl _⟩
  have hsym : SymmetricFor std (tableNow heap (lastTable []) []) x := by
    have e : tableNow heap (lastTable []) [] = ⟨[], []⟩ := rfl
    rw [e]
    intro a ha b hb
    have ha : a ∈ exIons.atoms := ha
    have hb : b ∈ exIons.atoms := hb
    fin_cases ha <;> fin_cases hb
    · rfl
    · rfl
    · rfl
    · rfl
  have h := bvs_redescribed_partial (exEnv std) (exEnv_ok std) heap [] hp rfl hs ⟨rfl, by decide⟩ hsym (fun i hi k hk => by
      exact hs.mask (maskNow []) (Or.inr rfl) i k hi hk) trivial (fun _ _ _ _ => rfl) (by decide) [] [] hv (exGen x) (fun R => (gen_exists _ _ _).choose_spec)
    trivial (fun _ _ _ _ => rfl) (by decide) [] [] hv (exGen x') (fun R => (gen_exists _ _ _).choose_spec)
  exact (h.1 0 (by decide)).1

end Verif.BVHist
