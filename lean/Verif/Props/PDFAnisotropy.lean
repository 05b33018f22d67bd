import Verif.Props.PDFModels
import Verif.Props.CrystalExample
/-! C90 for a crystal with an anisotropic atom. -/
namespace Verif.PDFHist
open Verif.Eval Verif.Diff Verif.KindDiff Verif.History Verif.PDFGrid Verif.PDFCache Verif.R3 Verif.Lattice Verif.Geo
open Verif.Crystal (unitCubic unitCubic_cart unitCubic_frac)

/-- An atom next to a mirror plane that moves farther in one direction than in the others. -/
noncomputable def exAniso (L0 : Lat) : RStru :=
  ⟨.crystal (unitCubic L0) (mirrorOps, 5 / 10 ^ 5), [⟨"Na", 1 / 4, 0, 0, 1, true, ⟨1 / 100, 0, 0, 0, 2 / 100, 0, 0, 0, 3 / 100⟩⟩]⟩

/-- Its displacements are those of `Displaced`, and differ between directions. -/
theorem exAniso_displaced (L0 : Lat) : (geom (exAniso L0)).Ok ∧ Displaced (exAniso L0) ∧
    ∀ a ∈ (exAniso L0).atoms, (∀ v : V3, v ≠ V3.zero → 0 < along a v) ∧ along a ⟨1, 0, 0⟩ = 1 / 100 ∧ along a ⟨0, 0, 1⟩ = 3 / 100 := by
  have hal : ∀ (a : Atom), a ∈ (exAniso L0).atoms → ∀ v : V3, along a v = (v.x ^ 2 / 100 + v.y ^ 2 * 2 / 100 + v.z ^ 2 * 3 / 100) / V3.dot v v := by
    intro a ha v
    rcases List.mem_singleton.1 ha with rfl
    unfold along
    rw [if_pos rfl]
    congr 1
    simp [Peak.quad, siteOf]
    ring
  have hcr : crysOf (exAniso L0).atoms (unitCubic L0) (mirrorOps, 5 / 10 ^ 5) =
      exCrys L0 mirrorOps ⟨⟨1 / 100, 0, 0⟩, ⟨0, 2 / 100, 0⟩, ⟨0, 0, 3 / 100⟩⟩ := by
    simp [crysOf, exCrys, exAniso, siteOf, atomPos]
  refine ⟨?_, ⟨exCrys_balanced L0 _ mem_mirrorOps, fun a ha => ⟨?_, ⟨?_, ?_⟩, fun op hop v => ?_⟩⟩, fun a ha => ⟨fun v hv => ?_, ?_, ?_⟩⟩
  · show ExactCrystal (crysOf (exAniso L0).atoms (unitCubic L0) (mirrorOps, 5 / 10 ^ 5)) ∧ SpaceGroup _ _
    rw [hcr]
    exact ⟨exCrys_exact L0 _ _ mem_mirrorOps, exCrys_group L0 _ mem_mirrorOps⟩
  · rcases List.mem_singleton.1 ha with rfl
    intro _
    simp [peakSite, siteOf]
  · rcases List.mem_singleton.1 ha with rfl
    simp [siteOf, M3.trans, M3.c0, M3.c1, M3.c2]
  · rcases List.mem_singleton.1 ha with rfl
    intro h
    cases h
  · have hr : rotC (unitCubic L0) op v = M3.mulVec op.R v := by
      unfold rotC
      rw [unitCubic_cart, unitCubic_frac]
    rw [hr, hal a ha, hal a ha]
    rcases (mem_mirrorOps op).1 hop with rfl | rfl
    · have : M3.mulVec idOp.R v = v := by ext <;> simp [idOp, M3.mulVec, M3.one, V3.dot]
      rw [this]
    · rw [mirror_apply]
      simp [V3.dot]
  · rw [hal a ha]
    have h0 : 0 < V3.dot v v := by
      rcases (V3.dot_self_nonneg v).lt_or_eq with h | h
      · exact h
      · refine absurd ?_ hv
        unfold V3.dot at h
        have hx : v.x = 0 := by nlinarith [sq_nonneg v.x, sq_nonneg v.y, sq_nonneg v.z]
        have hy : v.y = 0 := by nlinarith [sq_nonneg v.x, sq_nonneg v.y, sq_nonneg v.z]
        have hz : v.z = 0 := by nlinarith [sq_nonneg v.x, sq_nonneg v.y, sq_nonneg v.z]
        ext
        · exact hx
        · exact hy
        · exact hz
    refine div_pos ?_ h0
    have : V3.dot v v = v.x ^ 2 + v.y ^ 2 + v.z ^ 2 := by unfold V3.dot; ring
    nlinarith [sq_nonneg v.x, sq_nonneg v.y, sq_nonneg v.z]
  · rw [hal a ha]; norm_num [V3.dot]
  · rw [hal a ha]; norm_num [V3.dot]

end Verif.PDFHist
