import Verif.Props.OverlapSum
import Verif.Props.OverlapGradient
import Verif.Props.BVSum
/-! C83: gradients of the overlaps of periodic structures. -/
set_option linter.unusedSectionVars false
namespace Verif.Overlap
open Verif.AssocMap Verif.BondGen Verif.Eval Verif.R3 Verif.Geo Verif.Lattice Verif.Periodic
open Verif.PDFCache (shift imageVec distance_comm)
open scoped BigOperators Topology

theorem list_sum_add {α : Type} (l : List α) (f g : α → ℝ) : (l.map f).sum + (l.map g).sum = (l.map fun x => f x + g x).sum := by
  induction l with
  | nil => simp
  | cons a l ih => simp only [List.map_cons, List.sum_cons, ← ih]; ring

/-- C83. The component of `gradients()[k]` along `e`, for any structure: over all atoms `i` in the list and all vectors `v`
from `i` to images of `k`. -/
theorem gradient_component (s : Stru ℝ) (g : Geometry) (hok : g.Ok) (hcnt : s.cnt = g.cnt) (mask : ℕ → ℕ → Bool) (rmin rmax : ℝ)
    (gen : ℝ → ℝ → Gen Bond) (hgen : g.IsGen rmin (rmaxUsed s rmax) (gen rmin (rmaxUsed s rmax))) (k : ℕ) (hk : k < s.cnt) :
    ∃ gx gy gz, (gradients s (evalStru s rmin rmax mask gen) 1)[k]? = some gx ∧
      (gradients s (evalStru s rmin rmax mask gen) 2)[k]? = some gy ∧
      (gradients s (evalStru s rmin rmax mask gen) 3)[k]? = some gz ∧
      ∀ e : V3, V3.dot ⟨gx, gy, gz⟩ e = ∑ i ∈ Finset.range s.cnt, if mask i k = true then
        g.sum i k (fun v => -2 * olp s rmin rmax i k v / V3.norm v * V3.dot v e) else 0 := by
  obtain ⟨bonds, hd⟩ := delivers g hok _ _ _ hgen
  obtain ⟨h1, h2, h3⟩ := gradients_spec s (basicTrace true (mapGen ovBond (gen rmin (rmaxUsed s rmax))) true mask s.cnt 0 1) k hk
  refine ⟨_, _, _, h1, h2, h3, fun e => ?_⟩
  have hdot : ∀ a b c : ℝ, V3.dot ⟨a, b, c⟩ e = a * e.x + b * e.y + c * e.z := fun a b c => by simp [V3.dot]
  rw [hdot, list_sum_mul, list_sum_mul, list_sum_mul, list_sum_add, list_sum_add]
  have h := trace_sum g _ _ _ bonds hd mask fun i j b => if j = k then
    (-2 * max 0 (s.radius i + s.radius j - b.d)) / b.d * (b.x * e.x + b.y * e.y + b.z * e.z) else 0
  rw [← hcnt] at h
  have e1 : ∀ l : List (Contrib (Bnd ℝ)), (l.map fun c => ((if c.i1 = k then -2 * overlapOf s.radius c / c.bond.d * c.bond.x else 0) * e.x +
      (if c.i1 = k then -2 * overlapOf s.radius c / c.bond.d * c.bond.y else 0) * e.y) +
      (if c.i1 = k then -2 * overlapOf s.radius c / c.bond.d * c.bond.z else 0) * e.z).sum =
      (l.map fun c => if c.i1 = k then (-2 * max 0 (s.radius c.i0 + s.radius c.i1 - c.bond.d)) / c.bond.d *
        (c.bond.x * e.x + c.bond.y * e.y + c.bond.z * e.z) else 0).sum := by
    intro l
    congr 1
    refine List.map_congr_left fun c _ => ?_
    by_cases hc : c.i1 = k
    · simp only [if_pos hc]
      unfold overlapOf
      ring
    · simp only [if_neg hc]
      ring
  rw [e1, h]
  refine Finset.sum_congr rfl fun i hi => ?_
  rw [Finset.sum_eq_single_of_mem k (Finset.mem_range.2 hk)]
  · congr 2
    funext v
    simp only [if_true]
    have hc := cut_olp s rmin rmax (fun x => -2 * x / V3.norm v * V3.dot v e) (by simp) i k (Finset.mem_range.1 hi) hk v
    refine Eq.trans ?_ hc
    unfold cut
    simp only [vecBnd, V3.dot]
  · intro j _ hj
    rw [cut_zero g _ _ i j _ fun v => if_neg hj, ite_self]

/-! ### The derivative -/

/-- The periodic structure with atom `k` and all its images displaced by `t e`. -/
noncomputable def displaced (n : ℕ) (L : Lat) (xyz : ℕ → V3) (k : ℕ) (e : V3) (t : ℝ) : Geometry :=
  .periodic n L (move xyz k e t)

theorem norm_add_ge (u w : V3) : V3.norm u ≤ V3.norm (V3.add u w) + V3.norm w := by
  have h := R3.V3.norm_sub_le (V3.add u w) w
  have e : V3.sub (V3.add u w) w = u := by ext <;> simp [V3.sub, V3.add]
  rwa [e] at h

theorem finsum_scale {ι : Type} (a : ℝ) (f : ι → ℝ) : a * ∑ᶠ x, f x = ∑ᶠ x, a * f x := smul_finsum a f

theorem add_smul_zero (u w : V3) : V3.add u (V3.smul 0 w) = u := by ext <;> simp [V3.add, V3.smul]

/-- Derivative of a sum of squared overlaps when all vectors move alike. -/
theorem pair_deriv {ι : Type} (s : Stru ℝ) (i j : ℕ) (hi : i < s.cnt) (hj : j < s.cnt) (rmin rmax : ℝ) (hmin : rmin ≤ 1 / 2 ^ 26)
    (hmax : maxSeparation s ≤ rmax) (V : ι → V3) (w : V3) (hsep : ∀ x, 1 / 2 ^ 26 < V3.norm (V x))
    (hfin : ∀ M, {x | V3.norm (V x) ≤ M}.Finite) :
    HasDerivAt (fun t => ∑ᶠ x, olp s rmin rmax i j (V3.add (V x) (V3.smul t w)) ^ 2)
      (∑ᶠ x, -2 * olp s rmin rmax i j (V x) / V3.norm (V x) * V3.dot (V x) w) 0 := by
  set A := s.radius i + s.radius j with hA
  have holp : ∀ v, olp s rmin rmax i j v = if 1 / 2 ^ 26 < V3.norm v then max 0 (A - V3.norm v) else 0 :=
    limits_irrelevant s i j hi hj rmin rmax hmin hmax
  have hz : ∀ v, A ≤ V3.norm v → olp s rmin rmax i j v = 0 := by
    intro v hv
    rw [holp, max_eq_left (by linarith), ite_self]
  set S := (hfin (A + 1)).toFinset with hS
  have hSm : ∀ x, x ∈ S ↔ V3.norm (V x) ≤ A + 1 := by intro x; rw [hS, Set.Finite.mem_toFinset]; rfl
  have hd : (∑ᶠ x, -2 * olp s rmin rmax i j (V x) / V3.norm (V x) * V3.dot (V x) w) =
      ∑ x ∈ S, -2 * olp s rmin rmax i j (V x) / V3.norm (V x) * V3.dot (V x) w := by
    refine finsum_eq_sum_of_support_subset _ ?_
    intro x hx
    rw [Finset.mem_coe, hSm]
    by_contra hn
    apply hx
    dsimp only
    rw [hz (V x) (by linarith)]
    ring
  rw [hd]
  have hev : (fun t => ∑ᶠ x, olp s rmin rmax i j (V3.add (V x) (V3.smul t w)) ^ 2) =ᶠ[𝓝 0]
      fun t => ∑ x ∈ S, olp s rmin rmax i j (V3.add (V x) (V3.smul t w)) ^ 2 := by
    have hb : ∀ᶠ t : ℝ in 𝓝 0, |t| * V3.norm w < 1 := by
      have hc : ContinuousAt (fun t : ℝ => |t| * V3.norm w) 0 := by fun_prop
      have h0 : (fun t : ℝ => |t| * V3.norm w) 0 < 1 := by simp
      exact hc.eventually (gt_mem_nhds h0)
    filter_upwards [hb] with t ht
    refine finsum_eq_sum_of_support_subset _ ?_
    intro x hx
    rw [Finset.mem_coe, hSm]
    by_contra hn
    apply hx
    have h1 := norm_add_ge (V x) (V3.smul t w)
    rw [V3.norm_smul] at h1
    dsimp only
    rw [hz _ (by linarith)]
    norm_num
  refine HasDerivAt.congr_of_eventuallyEq ?_ hev
  refine HasDerivAt.fun_sum fun x _ => ?_
  have hne : V3.norm (V x) ≠ 0 := by have := hsep x; intro h; rw [h] at this; norm_num at this
  have hn := deriv_norm (V x) w hne
  have hloc : (fun t => olp s rmin rmax i j (V3.add (V x) (V3.smul t w)) ^ 2) =ᶠ[𝓝 0]
      fun t => (max 0 (A - V3.norm (V3.add (V x) (V3.smul t w)))) ^ 2 := by
    have h0 : 1 / 2 ^ 26 < V3.norm (V3.add (V x) (V3.smul 0 w)) := by rw [add_smul_zero]; exact hsep x
    filter_upwards [hn.continuousAt.eventually (lt_mem_nhds h0)] with t ht
    rw [holp, if_pos ht]
  refine HasDerivAt.congr_of_eventuallyEq ?_ hloc
  have h1 : HasDerivAt (fun t => A - V3.norm (V3.add (V x) (V3.smul t w))) (-(V3.dot (V x) w / V3.norm (V x))) 0 := by
    simpa using hn.const_sub A
  have h2 := deriv_maxsq (A - V3.norm (V3.add (V x) (V3.smul 0 w)))
  have h3 := HasDerivAt.comp (0 : ℝ) h2 h1
  refine h3.congr_deriv ?_
  rw [add_smul_zero, holp, if_pos (hsep x)]
  ring

theorem imageVec_neg (L : Lat) (xyz : ℕ → V3) (i j : ℕ) (t : ℤ × ℤ × ℤ) :
    imageVec L xyz j i (-t) = V3.sub V3.zero (imageVec L xyz i j t) := by
  unfold imageVec shift
  ext <;> simp [V3.sub, V3.add, V3.zero, Lat.cartesian, tripVec, M3.vecMul, V3.dot, M3.c0, M3.c1, M3.c2] <;> ring

theorem imageVec_move (L : Lat) (xyz : ℕ → V3) (k i j : ℕ) (e : V3) (t : ℝ) (x : ℤ × ℤ × ℤ) :
    imageVec L (move xyz k e t) i j x = V3.add (imageVec L xyz i j x)
      (V3.smul t (V3.smul ((if j = k then 1 else 0) - (if i = k then 1 else 0)) e)) := by
  unfold imageVec move
  by_cases hj : j = k <;> by_cases hi : i = k
  · subst hj; subst hi
    simp only [Function.update_self, if_true]
    ext <;> simp [V3.add, V3.sub, V3.smul] 
  · subst hj
    rw [Function.update_self, Function.update_of_ne hi, if_pos rfl, if_neg hi]
    ext <;> simp [V3.add, V3.sub, V3.smul] <;> ring
  · subst hi
    rw [Function.update_self, Function.update_of_ne hj, if_pos rfl, if_neg hj]
    ext <;> simp [V3.add, V3.sub, V3.smul] <;> ring
  · rw [Function.update_of_ne hj, Function.update_of_ne hi, if_neg hj, if_neg hi]
    ext <;> simp [V3.add, V3.sub, V3.smul]

/-- C83, C51. In a periodic, fully occupied structure the vector `gradients()[k]` gives the rate of change of the total square
overlap of the cell for a displacement of atom `k`, with all its images, in any direction `e`. -/
theorem periodic_gradients_partial (s : Stru ℝ) (L : Lat) (xyz : ℕ → V3) (hok : (Geometry.periodic s.cnt L xyz).Ok)
    (ho : ∀ i, s.occ i = 1) (hm : ∀ i, s.mult i = 1) (mask : ℕ → ℕ → Bool) (hmask : ∀ i j, mask i j = mask j i)
    (rmin rmax : ℝ) (hmin : rmin ≤ 1 / 2 ^ 26) (hmax : maxSeparation s ≤ rmax)
    (hsep : ∀ i < s.cnt, ∀ j < s.cnt, i ≠ j → ∀ x, 1 / 2 ^ 26 < V3.norm (imageVec L xyz i j x))
    (gen : ℝ → ℝ → Gen Bond) (hgen : (Geometry.periodic s.cnt L xyz).IsGen rmin (rmaxUsed s rmax) (gen rmin (rmaxUsed s rmax)))
    (k : ℕ) (hk : k < s.cnt) (e : V3) :
    ∃ gx gy gz, (gradients s (evalStru s rmin rmax mask gen) 1)[k]? = some gx ∧
      (gradients s (evalStru s rmin rmax mask gen) 2)[k]? = some gy ∧
      (gradients s (evalStru s rmin rmax mask gen) 3)[k]? = some gz ∧
      HasDerivAt (fun t => total s (displaced s.cnt L xyz k e t) mask rmin rmax) (V3.dot ⟨gx, gy, gz⟩ e) 0 := by
  obtain ⟨gx, gy, gz, h1, h2, h3, h4⟩ := gradient_component s (.periodic s.cnt L xyz) hok rfl mask rmin rmax gen hgen k hk
  refine ⟨gx, gy, gz, h1, h2, h3, ?_⟩
  rw [h4 e]
  let T : ℕ → ℕ → ℝ := fun i j => ∑ᶠ x : ℤ × ℤ × ℤ, -2 * olp s rmin rmax i j (imageVec L xyz i j x) / V3.norm (imageVec L xyz i j x) *
    V3.dot (imageVec L xyz i j x) e
  let δ : ℕ → ℕ → ℝ := fun i j => (if j = k then 1 else 0) - (if i = k then 1 else 0)
  have hT : ∀ i j, T j i = - T i j := by
    intro i j
    have e1 : (-1 : ℝ) * T i j = ∑ᶠ x : ℤ × ℤ × ℤ, (-1 : ℝ) * (-2 * olp s rmin rmax i j (imageVec L xyz i j x) /
        V3.norm (imageVec L xyz i j x) * V3.dot (imageVec L xyz i j x) e) := finsum_scale _ _
    rw [← neg_one_mul, e1]
    refine (finsum_comp_equiv (Equiv.neg (ℤ × ℤ × ℤ)) (f := fun x =>
      -2 * olp s rmin rmax j i (imageVec L xyz j i x) / V3.norm (imageVec L xyz j i x) *
        V3.dot (imageVec L xyz j i x) e)).symm.trans (finsum_congr fun x => ?_)
    rw [Equiv.neg_apply, imageVec_neg]
    have hn : V3.norm (V3.sub V3.zero (imageVec L xyz i j x)) = V3.norm (imageVec L xyz i j x) := PDFCache.norm_neg _
    have ho : olp s rmin rmax j i (V3.sub V3.zero (imageVec L xyz i j x)) = olp s rmin rmax i j (imageVec L xyz i j x) := by
      unfold olp
      rw [hn, add_comm (s.radius j)]
    have hd : V3.dot (V3.sub V3.zero (imageVec L xyz i j x)) e = - V3.dot (imageVec L xyz i j x) e := by
      simp only [V3.dot, V3.sub, V3.zero]; ring
    rw [hn, ho, hd]
    ring
  have hpair : ∀ i < s.cnt, ∀ j < s.cnt, HasDerivAt (fun t => squareOverlap s (displaced s.cnt L xyz k e t) rmin rmax i j) (δ i j * T i j) 0 := by
    intro i hi j hj
    have hf : (fun t => squareOverlap s (displaced s.cnt L xyz k e t) rmin rmax i j) = fun t => ∑ᶠ x : ℤ × ℤ × ℤ,
        olp s rmin rmax i j (V3.add (imageVec L xyz i j x) (V3.smul t (V3.smul (δ i j) e))) ^ 2 := by
      funext t
      unfold squareOverlap displaced
      simp only [Geometry.sum]
      refine finsum_congr fun x => ?_
      rw [imageVec_move]
    rw [hf]
    by_cases hij : i = j
    · subst hij
      have hδ : δ i i = 0 := sub_self _
      have e0 : ∀ u : V3, ∀ t, V3.add u (V3.smul t (V3.smul 0 e)) = u := by
        intro u t
        ext <;> simp [V3.add, V3.smul]
      rw [hδ, zero_mul]
      simp only [e0]
      exact hasDerivAt_const _ _
    · have hfin : ∀ M, {x | V3.norm (imageVec L xyz i j x) ≤ M}.Finite := by
        intro M
        have := range_finite (.periodic s.cnt L xyz) hok 0 M i j hi hj
        refine Set.Finite.subset this fun x hx => ?_
        exact ⟨R3.V3.norm_nonneg _, hx, hsep i hi j hj hij x⟩
      refine (pair_deriv s i j hi hj rmin rmax hmin hmax (imageVec L xyz i j) (V3.smul (δ i j) e) (hsep i hi j hj hij) hfin).congr_deriv ?_
      have e1 : δ i j * T i j = ∑ᶠ x : ℤ × ℤ × ℤ, δ i j * (-2 * olp s rmin rmax i j (imageVec L xyz i j x) /
        V3.norm (imageVec L xyz i j x) * V3.dot (imageVec L xyz i j x) e) := finsum_scale _ _
      rw [e1]
      refine finsum_congr fun x => ?_
      have : V3.dot (imageVec L xyz i j x) (V3.smul (δ i j) e) = δ i j * V3.dot (imageVec L xyz i j x) e := by
        simp only [V3.dot, V3.smul]; ring
      rw [this]
      ring
  have htot : HasDerivAt (fun t => total s (displaced s.cnt L xyz k e t) mask rmin rmax)
      ((∑ i ∈ Finset.range s.cnt, ∑ j ∈ Finset.range s.cnt, if mask i j = true then δ i j * T i j else 0) / 2) 0 := by
    unfold total
    refine HasDerivAt.div_const ?_ 2
    refine HasDerivAt.fun_sum fun i hi => HasDerivAt.fun_sum fun j hj => ?_
    by_cases hu : mask i j = true
    · simp only [if_pos hu, ho, hm, Nat.cast_one, one_mul]
      exact hpair i (Finset.mem_range.1 hi) j (Finset.mem_range.1 hj)
    · simp only [if_neg hu]
      exact hasDerivAt_const _ _
  refine htot.congr_deriv ?_
  let U : ℕ → ℕ → ℝ := fun i j => if mask i j = true then T i j else 0
  have hU : ∀ i j, U j i = - U i j := by
    intro i j
    show (if mask j i = true then T j i else 0) = -(if mask i j = true then T i j else 0)
    rw [hmask j i, hT i j]
    split <;> simp
  have e1 : ∀ i j, (if mask i j = true then δ i j * T i j else 0) = (if j = k then U i j else 0) - (if i = k then U i j else 0) := by
    intro i j
    show (if mask i j = true then ((if j = k then 1 else 0) - (if i = k then 1 else 0)) * T i j else 0) =
      (if j = k then (if mask i j = true then T i j else 0) else 0) - (if i = k then (if mask i j = true then T i j else 0) else 0)
    by_cases hu : mask i j = true
    · simp only [if_pos hu]
      split <;> split <;> ring
    · simp only [if_neg hu, ite_self, sub_self]
  have e2 : (∑ i ∈ Finset.range s.cnt, ∑ j ∈ Finset.range s.cnt, if mask i j = true then δ i j * T i j else 0) =
      2 * ∑ i ∈ Finset.range s.cnt, U i k := by
    simp only [e1, Finset.sum_sub_distrib]
    have ha : (∑ i ∈ Finset.range s.cnt, ∑ j ∈ Finset.range s.cnt, if j = k then U i j else 0) = ∑ i ∈ Finset.range s.cnt, U i k := by
      refine Finset.sum_congr rfl fun i _ => ?_
      rw [Finset.sum_ite_eq' , if_pos (Finset.mem_range.2 hk)]
    have hb : (∑ i ∈ Finset.range s.cnt, ∑ j ∈ Finset.range s.cnt, if i = k then U i j else 0) = - ∑ i ∈ Finset.range s.cnt, U i k := by
      rw [Finset.sum_comm, ← Finset.sum_neg_distrib]
      refine Finset.sum_congr rfl fun j _ => ?_
      rw [Finset.sum_ite_eq' , if_pos (Finset.mem_range.2 hk), hU j k]
    rw [ha, hb]
    ring
  rw [e2]
  have e3 : (2 * ∑ i ∈ Finset.range s.cnt, U i k) / 2 = ∑ i ∈ Finset.range s.cnt, U i k := by ring
  rw [e3]
  rfl

/-! ### Crystals: a defect of the gradients -/

open Verif.PDFCache (moved Orbit orbitSum orbitSum_eq mirror mirror_apply idOp act act_id mirrorOps mem_mirrorOps exCrys_group fracPos
  orbit_eq ExactCrystal SpaceGroup equivPos_ne headD_mem spaceGroup_sym mem_orbit)
open Verif.Crystal (Crys equivPos unitCubic unitCubic_reachable unitCubic_cart unitCubic_frac)
open Verif.BV (caf caf_exact caf_frac0 caf_frac1 act_zero)

/-- The sum of an odd function over the atoms of a site that are arranged symmetrically around the first position of another. -/
theorem odd_sum (c : Crys) (hc : ExactCrystal c) (hS : SpaceGroup c.L c.ops) (i j : ℕ) (hi : i < c.atoms.length) (hj : j < c.atoms.length)
    (hsym : ∀ p ∈ Orbit c.L (equivPos c i), ∀ z ∈ Orbit c.L (equivPos c j), V3.sub (V3.add p p) z ∈ Orbit c.L (equivPos c j))
    (lo hi' : ℝ) (F : V3 → ℝ) (hF : ∀ v, ¬ InRange lo hi' (V3.norm v) → F v = 0) (hodd : ∀ v, F (V3.sub V3.zero v) = - F v) :
    (Geometry.crystal c).sum i j F = 0 := by
  set p := (equivPos c i).headD V3.zero with hp
  have hpm : p ∈ equivPos c i := headD_mem _ _ (equivPos_ne c hc.eps i hi)
  have hpo : p ∈ Orbit c.L (equivPos c i) := PDFCache.self_mem_orbit c.L _ p hpm
  have hW : PDFCache.CrystalSym c.L c.atoms.length (equivPos c) (fun _ _ _ _ => (0 : ℝ)) :=
    spaceGroup_sym c hc hS _ (fun _ _ _ _ _ _ _ _ _ _ _ => rfl) (fun _ _ _ _ _ _ _ _ => rfl)
  have hfin : (Orbit c.L (equivPos c j) ∩ Function.support fun z => F (V3.sub z p)).Finite := by
    have hr := range_finite (.crystal c) ⟨hc, hS⟩ lo hi' i j hi hj
    refine Set.Finite.subset (Set.Finite.biUnion (List.finite_toSet (equivPos c j)) fun q hq => (hr p hpm q hq).image (moved c.L q)) ?_
    rintro z ⟨⟨q, hq, t, rfl⟩, hz⟩
    refine Set.mem_biUnion (show q ∈ {x | x ∈ equivPos c j} from hq) ⟨t, ?_, rfl⟩
    by_contra hn
    exact hz (hF _ hn)
  have e : (Geometry.crystal c).sum i j F = ∑ᶠ z ∈ Orbit c.L (equivPos c j), F (V3.sub z p) :=
    orbitSum_eq c.L hc.lat _ (hW.apart j hj) _ hfin
  have hb : Set.BijOn (fun z => V3.sub (V3.add p p) z) (Orbit c.L (equivPos c j)) (Orbit c.L (equivPos c j)) := by
    have hinv : ∀ z, V3.sub (V3.add p p) (V3.sub (V3.add p p) z) = z := by intro z; ext <;> simp [V3.sub, V3.add]
    refine ⟨fun z hz => hsym p hpo z hz, fun x _ y _ hxy => ?_, fun z hz => ⟨_, hsym p hpo z hz, hinv z⟩⟩
    have := congrArg (fun z => V3.sub (V3.add p p) z) hxy
    simpa only [hinv] using this
  have h1 : (∑ᶠ z ∈ Orbit c.L (equivPos c j), - F (V3.sub z p)) = ∑ᶠ z ∈ Orbit c.L (equivPos c j), F (V3.sub z p) := by
    refine finsum_mem_eq_of_bijOn _ hb fun z _ => ?_
    rw [← hodd]
    congr 1
    ext <;> simp [V3.sub, V3.add, V3.zero] <;> ring
  have h2 : (∑ᶠ z ∈ Orbit c.L (equivPos c j), - F (V3.sub z p)) = - ∑ᶠ z ∈ Orbit c.L (equivPos c j), F (V3.sub z p) := by
    simp only [finsum_neg_distrib]
  rw [e]
  linarith

theorem caf_orbit (L0 : Lat) (i : ℕ) (hi : i < 2) (x : V3) (hx : x ∈ Orbit (caf L0).L (equivPos (caf L0) i)) :
    ∃ k : ℤ × ℤ × ℤ, x = V3.add ⟨if i = 0 then 0 else 1 / 4, 0, 0⟩ (tripVec k) ∨ x = V3.add ⟨if i = 0 then 0 else -(1 / 4), 0, 0⟩ (tripVec k) := by
  obtain ⟨op, hop, k, rfl⟩ := (orbit_eq (caf L0) (caf_exact L0) i hi x).1 hx
  have hL : ∀ v, (caf L0).L.cartesian v = v := fun v => unitCubic_cart L0 v
  rw [hL]
  have h01 : i = 0 ∨ i = 1 := by omega
  rcases h01 with rfl | rfl
  · exact ⟨k, Or.inl (by rw [caf_frac0, act_zero op hop]; rfl)⟩
  · rw [caf_frac1]
    rcases (mem_mirrorOps op).1 hop with rfl | rfl
    · exact ⟨k, Or.inl (by rw [act_id]; rfl)⟩
    · exact ⟨k, Or.inr (by congr 1; ext <;> simp [act, mirror_apply, V3.add, V3.zero])⟩

theorem caf_orbit_mem (L0 : Lat) (k : ℤ × ℤ × ℤ) (b : Bool) :
    V3.add ⟨if b then 1 / 4 else -(1 / 4), 0, 0⟩ (tripVec k) ∈ Orbit (caf L0).L (equivPos (caf L0) 1) := by
  rw [orbit_eq (caf L0) (caf_exact L0) 1 Nat.one_lt_two]
  have hL : ∀ v, (caf L0).L.cartesian v = v := fun v => unitCubic_cart L0 v
  cases b
  · refine ⟨⟨mirror, V3.zero⟩, (mem_mirrorOps _).2 (Or.inr rfl), k, ?_⟩
    rw [hL, caf_frac1]
    congr 1
    ext <;> simp [act, mirror_apply, V3.add, V3.zero]
  · refine ⟨idOp, (mem_mirrorOps _).2 (Or.inl rfl), k, ?_⟩
    rw [hL, caf_frac1, act_id]
    rfl

theorem caf_sym (L0 : Lat) (i : ℕ) (hi : i < 2) : ∀ p ∈ Orbit (caf L0).L (equivPos (caf L0) i), ∀ z ∈ Orbit (caf L0).L (equivPos (caf L0) 1),
    V3.sub (V3.add p p) z ∈ Orbit (caf L0).L (equivPos (caf L0) 1) := by
  intro p hp z hz
  have h : ∀ (m : ℤ × ℤ × ℤ) (b : Bool) (x : V3), x = V3.add ⟨if b then 1 / 4 else -(1 / 4), 0, 0⟩ (tripVec m) →
      x ∈ Orbit (caf L0).L (equivPos (caf L0) 1) := by
    rintro m b x rfl
    exact caf_orbit_mem L0 m b
  obtain ⟨n, hn⟩ := caf_orbit L0 1 Nat.one_lt_two z hz
  obtain ⟨k, hk⟩ := caf_orbit L0 i hi p hp
  have h01 : i = 0 ∨ i = 1 := by omega
  rcases h01 with rfl | rfl
  · simp only [if_true, or_self] at hk
    simp only [one_ne_zero, if_false] at hn
    rcases hn with rfl | rfl
    · refine h (k + k - n) false _ ?_
      rw [hk]
      ext <;> simp [V3.add, V3.sub, tripVec] <;> ring
    · refine h (k + k - n) true _ ?_
      rw [hk]
      ext <;> simp [V3.add, V3.sub, tripVec] <;> ring
  · simp only [one_ne_zero, if_false] at hk hn
    rcases hn with rfl | rfl <;> rcases hk with rfl | rfl
    · refine h (k + k - n) true _ ?_
      ext <;> simp [V3.add, V3.sub, tripVec] <;> ring
    · refine h (k + k - n - (1, 0, 0)) true _ ?_
      ext <;> simp [V3.add, V3.sub, tripVec] <;> ring
    · refine h (k + k - n + (1, 0, 0)) false _ ?_
      ext <;> simp [V3.add, V3.sub, tripVec] <;> ring
    · refine h (k + k - n) false _ ?_
      ext <;> simp [V3.add, V3.sub, tripVec] <;> ring

/-- In the crystal with Ca on a mirror plane and F at x = 1/4 the gradient at F is zero for all radii, because the bonds from
Ca to both equivalent F atoms are added without turning them back to the first F. -/
theorem crystal_gradient_zero (L0 : Lat) (s : Stru ℝ) (hcnt : s.cnt = 2) (mask : ℕ → ℕ → Bool) (rmin rmax : ℝ) (gen : ℝ → ℝ → Gen Bond)
    (hgen : (Geometry.crystal (caf L0)).IsGen rmin (rmaxUsed s rmax) (gen rmin (rmaxUsed s rmax))) :
    (gradients s (evalStru s rmin rmax mask gen) 1)[1]? = some 0 := by
  obtain ⟨gx, gy, gz, h1, h2, h3, h4⟩ := gradient_component s (.crystal (caf L0)) ⟨caf_exact L0, exCrys_group L0 _ mem_mirrorOps⟩ hcnt mask
    rmin rmax gen hgen 1 (by omega)
  rw [h1]
  have h := h4 ⟨1, 0, 0⟩
  have e : V3.dot ⟨gx, gy, gz⟩ ⟨1, 0, 0⟩ = gx := by simp [V3.dot]
  rw [e] at h
  rw [h]
  congr 1
  refine Finset.sum_eq_zero fun i hi => ?_
  rw [Finset.mem_range, hcnt] at hi
  rw [odd_sum (caf L0) (caf_exact L0) (exCrys_group L0 _ mem_mirrorOps) i 1 hi Nat.one_lt_two (caf_sym L0 i hi) rmin rmax, ite_self]
  · intro v hv
    unfold olp
    rw [if_neg hv]
    ring
  · intro v
    have hn : V3.norm (V3.sub V3.zero v) = V3.norm v := PDFCache.norm_neg _
    have hd : V3.dot (V3.sub V3.zero v) ⟨1, 0, 0⟩ = - V3.dot v ⟨1, 0, 0⟩ := by
      simp only [V3.dot, V3.sub, V3.zero]; ring
    unfold olp
    rw [hn, hd]
    ring

/-- The same atoms as a periodic structure. -/
noncomputable def cafAtoms (i : ℕ) : V3 := if i = 0 then V3.zero else if i = 1 then ⟨1 / 4, 0, 0⟩ else ⟨3 / 4, 0, 0⟩

/-- All radii 3/20: only Ca and F overlap. -/
noncomputable def cafStru : Stru ℝ := ⟨3, fun _ => 1, fun _ => 1, fun i => if i = 0 then "Ca" else "F", fun _ => 3 / 20⟩

theorem cafAtoms_ok (L0 : Lat) : (Geometry.periodic 3 (unitCubic L0) cafAtoms).Ok := by
  refine ⟨unitCubic_reachable L0, fun i n t ht => ?_⟩
  rw [unitCubic_frac] at ht
  have h26 : sqrtEps = 1 / 2 ^ 26 := rfl
  rw [h26]
  have ht' : t = 0 ∨ t = 1 / 4 ∨ t = 3 / 4 := by
    unfold cafAtoms at ht
    simp only [List.mem_cons, List.not_mem_nil, or_false] at ht
    split at ht
    · left; rcases ht with h | h | h <;> rw [h] <;> rfl
    · split at ht
      · rcases ht with h | h | h
        · right; left; exact h
        · left; exact h
        · left; exact h
      · rcases ht with h | h | h
        · right; right; exact h
        · left; exact h
        · left; exact h
  rintro ⟨hl, hu⟩
  rcases ht' with rfl | rfl | rfl
  · have h1 : (0 : ℤ) < n := by exact_mod_cast hu
    have h2 : (n : ℝ) < 1 := by
      have : (1 : ℝ) / 2 ^ 26 < 1 := by norm_num
      linarith
    have h3 : n < 1 := by exact_mod_cast h2
    omega
  · have h1 : (0 : ℤ) < n := by
      have : (0 : ℝ) < n := by linarith
      exact_mod_cast this
    have h2 : (n : ℝ) < 1 := by
      have : (1 : ℝ) / 2 ^ 26 < 1 / 2 := by norm_num
      linarith
    have h3 : n < 1 := by exact_mod_cast h2
    omega
  · have h1 : (0 : ℤ) < n := by
      have : (0 : ℝ) < n := by linarith
      exact_mod_cast this
    have h2 : (n : ℝ) < 1 := by
      have : (1 : ℝ) / 2 ^ 26 < 1 / 8 := by norm_num
      linarith
    have h3 : n < 1 := by exact_mod_cast h2
    omega

/-- A defect: described by a periodic cell the same atoms have the gradient -1/10 at F. -/
theorem crystal_gradient_bug (L0 : Lat) (gen : ℝ → ℝ → Gen Bond)
    (hgen : (Geometry.periodic 3 (unitCubic L0) cafAtoms).IsGen 0 (rmaxUsed cafStru 100) (gen 0 (rmaxUsed cafStru 100))) :
    (gradients cafStru (evalStru cafStru 0 100 (fun _ _ => true) gen) 1)[1]? = some (-(1 / 10) : ℝ) := by
  obtain ⟨gx, gy, gz, h1, h2, h3, h4⟩ := gradient_component cafStru (.periodic 3 (unitCubic L0) cafAtoms) (cafAtoms_ok L0) rfl
    (fun _ _ => true) 0 100 gen hgen 1 (by show 1 < 3; omega)
  rw [h1]
  have h := h4 ⟨1, 0, 0⟩
  have e : V3.dot ⟨gx, gy, gz⟩ ⟨1, 0, 0⟩ = gx := by simp [V3.dot]
  rw [e] at h
  rw [h]
  congr 1
  have hvec : ∀ i x, imageVec (unitCubic L0) cafAtoms i 1 x = ⟨1 / 4 + x.1 - (cafAtoms i).x, x.2.1 - (cafAtoms i).y, x.2.2 - (cafAtoms i).z⟩ := by
    intro i x
    unfold imageVec shift
    rw [unitCubic_cart]
    ext <;> simp [V3.sub, V3.add, tripVec, cafAtoms]
  have hfar : ∀ i v, 3 / 10 ≤ V3.norm v → olp cafStru 0 100 i 1 v = 0 := by
    intro i v hv
    unfold olp
    split
    · rw [max_eq_left]
      show (3 / 20 + 3 / 20 : ℝ) - V3.norm v ≤ 0
      linarith
    · rfl
  have hnear : ∀ i v, V3.norm v ≤ 0 → olp cafStru 0 100 i 1 v = 0 := by
    intro i v hv
    unfold olp
    rw [if_neg]
    rintro ⟨-, -, h⟩
    have : (0 : ℝ) < 1 / 2 ^ 26 := by positivity
    linarith
  have hint : ∀ n : ℤ, n ≠ 0 → 1 ≤ |(n : ℝ)| := by
    intro n hn
    have : (1 : ℤ) ≤ |n| := Int.one_le_abs hn
    exact_mod_cast this
  have hz : ∀ v : V3, V3.norm v ≤ 0 ∨ 3 / 10 ≤ V3.norm v → ∀ i, -2 * olp cafStru 0 100 i 1 v / V3.norm v * V3.dot v ⟨1, 0, 0⟩ = 0 := by
    intro v hv i
    rcases hv with hv | hv
    · rw [hnear i v hv]; ring
    · rw [hfar i v hv]; ring
  have hbigy : ∀ v : V3, 1 ≤ |v.y| ∨ 1 ≤ |v.z| ∨ 3 / 10 ≤ |v.x| → 3 / 10 ≤ V3.norm v := by
    intro v hv
    have hx := V3.abs_x_le v
    have hy := V3.abs_y_le v
    have hz := V3.abs_z_le v
    rcases hv with hv | hv | hv <;> linarith
  have hc3 : cafStru.cnt = 3 := rfl
  rw [hc3, Finset.sum_range_succ, Finset.sum_range_succ, Finset.sum_range_one]
  simp only [if_true, Geometry.sum]
  have s0 : (∑ᶠ x : ℤ × ℤ × ℤ, -2 * olp cafStru 0 100 0 1 (imageVec (unitCubic L0) cafAtoms 0 1 x) /
      V3.norm (imageVec (unitCubic L0) cafAtoms 0 1 x) * V3.dot (imageVec (unitCubic L0) cafAtoms 0 1 x) ⟨1, 0, 0⟩) = -(1 / 10) := by
    rw [finsum_eq_single _ (0 : ℤ × ℤ × ℤ)]
    · rw [hvec]
      have hn : V3.norm (⟨1 / 4 + ((0 : ℤ × ℤ × ℤ).1 : ℝ) - (cafAtoms 0).x, ((0 : ℤ × ℤ × ℤ).2.1 : ℝ) - (cafAtoms 0).y,
          ((0 : ℤ × ℤ × ℤ).2.2 : ℝ) - (cafAtoms 0).z⟩ : V3) = 1 / 4 := by
        simp only [cafAtoms, if_true, V3.zero, Prod.fst_zero, Prod.snd_zero, Int.cast_zero, V3.norm, V3.dot]
        rw [show (1 / 4 + 0 - 0) * (1 / 4 + 0 - 0) + (0 - 0) * (0 - 0) + (0 - 0) * (0 - 0) = (1 / 4 : ℝ) ^ 2 by norm_num]
        exact Real.sqrt_sq (by norm_num)
      have ho : olp cafStru 0 100 0 1 (⟨1 / 4 + ((0 : ℤ × ℤ × ℤ).1 : ℝ) - (cafAtoms 0).x, ((0 : ℤ × ℤ × ℤ).2.1 : ℝ) - (cafAtoms 0).y,
          ((0 : ℤ × ℤ × ℤ).2.2 : ℝ) - (cafAtoms 0).z⟩ : V3) = 1 / 20 := by
        unfold olp
        rw [hn, if_pos ⟨by norm_num, by norm_num, by norm_num⟩]
        show max 0 ((3 / 20 : ℝ) + 3 / 20 - 1 / 4) = 1 / 20
        norm_num
      rw [hn, ho]
      simp only [cafAtoms, if_true, V3.zero, Prod.fst_zero, Int.cast_zero, V3.dot]
      norm_num
    · intro x hx
      refine hz _ (Or.inr (hbigy _ ?_)) 0
      rw [hvec]
      simp only [cafAtoms, if_true, V3.zero, sub_zero]
      by_cases h2 : x.2.1 = 0
      · by_cases h3 : x.2.2 = 0
        · have h1 : x.1 ≠ 0 := fun h => hx (Prod.ext h (Prod.ext h2 h3))
          have := hint x.1 h1
          refine Or.inr (Or.inr ?_)
          have ht := abs_sub_abs_le_abs_sub (x.1 : ℝ) (-(1 / 4))
          rw [show (x.1 : ℝ) - -(1 / 4) = 1 / 4 + x.1 by ring, show |(-(1 / 4) : ℝ)| = 1 / 4 by norm_num] at ht
          linarith
        · exact Or.inr (Or.inl (hint _ h3))
      · exact Or.inl (hint _ h2)
  have s1 : (∑ᶠ x : ℤ × ℤ × ℤ, -2 * olp cafStru 0 100 1 1 (imageVec (unitCubic L0) cafAtoms 1 1 x) /
      V3.norm (imageVec (unitCubic L0) cafAtoms 1 1 x) * V3.dot (imageVec (unitCubic L0) cafAtoms 1 1 x) ⟨1, 0, 0⟩) = 0 := by
    refine finsum_eq_zero_of_forall_eq_zero fun x => ?_
    refine hz _ ?_ 1
    rw [hvec]
    simp only [cafAtoms, one_ne_zero, if_false, if_true, sub_zero]
    by_cases h0 : x = 0
    · left
      subst h0
      simp [V3.norm, V3.dot]
    · right
      refine hbigy _ ?_
      by_cases h2 : x.2.1 = 0
      · by_cases h3 : x.2.2 = 0
        · have h1 : x.1 ≠ 0 := fun h => h0 (Prod.ext h (Prod.ext h2 h3))
          have := hint x.1 h1
          refine Or.inr (Or.inr ?_)
          rw [show (1 / 4 : ℝ) + x.1 - 1 / 4 = x.1 by ring]
          linarith
        · exact Or.inr (Or.inl (hint _ h3))
      · exact Or.inl (hint _ h2)
  have s2 : (∑ᶠ x : ℤ × ℤ × ℤ, -2 * olp cafStru 0 100 2 1 (imageVec (unitCubic L0) cafAtoms 2 1 x) /
      V3.norm (imageVec (unitCubic L0) cafAtoms 2 1 x) * V3.dot (imageVec (unitCubic L0) cafAtoms 2 1 x) ⟨1, 0, 0⟩) = 0 := by
    refine finsum_eq_zero_of_forall_eq_zero fun x => ?_
    refine hz _ (Or.inr (hbigy _ (Or.inr (Or.inr ?_)))) 2
    rw [hvec]
    simp only [cafAtoms, if_false, OfNat.ofNat_ne_zero, OfNat.ofNat_ne_one]
    rw [show (1 / 4 : ℝ) + x.1 - 3 / 4 = ((2 * x.1 - 1 : ℤ) : ℝ) / 2 by push_cast; ring, abs_div]
    have := hint (2 * x.1 - 1) (by omega)
    rw [abs_of_pos (show (0 : ℝ) < 2 by norm_num)]
    linarith
  rw [s0, s1, s2]
  ring

/-- The hypotheses are met: the crystal, its atoms as a periodic structure, whose generators exist, and distances above the
tolerance. -/
example (L0 : Lat) : (∃ gen, (Geometry.crystal (caf L0)).IsGen 0 (rmaxUsed cafStru 100) gen) ∧
    (∃ gen, (Geometry.periodic 3 (unitCubic L0) cafAtoms).IsGen 0 (rmaxUsed cafStru 100) gen) ∧
    (Geometry.periodic cafStru.cnt (unitCubic L0) cafAtoms).Ok ∧ maxSeparation cafStru ≤ 100 ∧
    ∀ x, 1 / 2 ^ 26 < V3.norm (imageVec (unitCubic L0) cafAtoms 2 1 x) := by
  refine ⟨gen_exists _ _ _, gen_exists _ _ _, cafAtoms_ok L0, ?_, fun x => ?_⟩
  · obtain ⟨i, -, h⟩ := (maxSeparation_spec cafStru).2.1 (by show 0 < 3; omega)
    rw [h]
    show 2 * (3 / 20 : ℝ) ≤ 100
    norm_num
  · have hx := V3.abs_x_le (imageVec (unitCubic L0) cafAtoms 2 1 x)
    have e : (imageVec (unitCubic L0) cafAtoms 2 1 x).x = ((2 * x.1 - 1 : ℤ) : ℝ) / 2 := by
      unfold imageVec shift
      rw [unitCubic_cart]
      simp [V3.sub, V3.add, tripVec, cafAtoms]
      ring
    rw [e, abs_div, abs_of_pos (show (0 : ℝ) < 2 by norm_num)] at hx
    have h1 : (1 : ℤ) ≤ |2 * x.1 - 1| := Int.one_le_abs (by omega)
    have h2 : (1 : ℝ) ≤ |((2 * x.1 - 1 : ℤ) : ℝ)| := by exact_mod_cast h1
    have h3 : (1 : ℝ) / 2 ^ 26 < 1 / 2 := by norm_num
    linarith

end Verif.Overlap
