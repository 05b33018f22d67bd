import Verif.Props.Overlap
import Verif.Model.R3
import Mathlib.Analysis.Calculus.Deriv.Mul
import Mathlib.Analysis.Calculus.Deriv.Add
import Mathlib.Analysis.Calculus.Deriv.Slope
import Mathlib.Analysis.Calculus.Deriv.Pow
import Mathlib.Analysis.SpecialFunctions.Sqrt
/-!
C51: `gradients()` is the gradient of `totalSquareOverlap()` with respect to the atom positions.
-/
namespace Verif.Overlap
open Verif.AssocMap Verif.Eval Verif.R3
open scoped BigOperators Topology

theorem deriv_maxsq (x : ℝ) : HasDerivAt (fun x : ℝ => (max 0 x) ^ 2) (2 * max 0 x) x := by
  rcases lt_trichotomy x 0 with h | h | h
  · have e : (fun x : ℝ => (max 0 x) ^ 2) =ᶠ[𝓝 x] fun _ => 0 := by
      filter_upwards [Iio_mem_nhds h] with y hy
      rw [max_eq_left (le_of_lt hy)]; norm_num
    rw [max_eq_left h.le, mul_zero]
    exact (hasDerivAt_const x (0 : ℝ)).congr_of_eventuallyEq e
  · subst h
    rw [max_self, mul_zero, hasDerivAt_iff_tendsto_slope_zero]
    apply squeeze_zero_norm (a := fun t : ℝ => |t|)
    · intro t
      rw [zero_add, max_self, smul_eq_mul, Real.norm_eq_abs]
      by_cases ht : 0 ≤ t
      · rw [max_eq_right ht]
        rcases eq_or_ne t 0 with h0 | h0
        · simp [h0]
        · have : t⁻¹ * (t ^ 2 - 0 ^ 2) = t := by field_simp; ring
          rw [this]
      · rw [max_eq_left (le_of_not_ge ht)]; simp
    · have : Filter.Tendsto (fun t : ℝ => |t|) (𝓝 0) (𝓝 |0|) := continuous_abs.tendsto 0
      rw [abs_zero] at this
      exact this.mono_left nhdsWithin_le_nhds
  · have e : (fun x : ℝ => (max 0 x) ^ 2) =ᶠ[𝓝 x] fun y => y ^ 2 := by
      filter_upwards [Ioi_mem_nhds h] with y hy
      rw [max_eq_right (le_of_lt hy)]
    rw [max_eq_right h.le]
    have := hasDerivAt_pow 2 x
    simp only [Nat.cast_ofNat, Nat.add_one_sub_one, pow_one] at this
    exact this.congr_of_eventuallyEq e

theorem deriv_norm (u v : V3) (hu : V3.norm u ≠ 0) :
    HasDerivAt (fun t : ℝ => V3.norm (V3.add u (V3.smul t v))) (V3.dot u v / V3.norm u) 0 := by
  have hd : HasDerivAt (fun t : ℝ => V3.dot (V3.add u (V3.smul t v)) (V3.add u (V3.smul t v))) (2 * V3.dot u v) 0 := by
    have e : (fun t : ℝ => V3.dot (V3.add u (V3.smul t v)) (V3.add u (V3.smul t v))) =
        fun t => V3.dot u u + 2 * V3.dot u v * t + V3.dot v v * t ^ 2 := by
      funext t; simp only [V3.dot, V3.add, V3.smul]; ring
    rw [e]
    have h1 : HasDerivAt (fun t : ℝ => V3.dot u u + 2 * V3.dot u v * t + V3.dot v v * t ^ 2)
        (0 + 2 * V3.dot u v * 1 + V3.dot v v * (2 * 0)) 0 := by
      refine HasDerivAt.fun_add (HasDerivAt.fun_add (hasDerivAt_const _ _) ((hasDerivAt_id (0 : ℝ)).const_mul _)) ?_
      have := (hasDerivAt_pow 2 (0 : ℝ)).const_mul (V3.dot v v)
      simpa using this
    simpa using h1
  have h0 : V3.dot (V3.add u (V3.smul 0 v)) (V3.add u (V3.smul 0 v)) = V3.dot u u := by
    simp only [V3.dot, V3.add, V3.smul]; ring
  have hne : V3.dot (V3.add u (V3.smul 0 v)) (V3.add u (V3.smul 0 v)) ≠ 0 := by
    rw [h0]
    intro h
    apply hu
    unfold V3.norm
    rw [h, Real.sqrt_zero]
  have := hd.sqrt hne
  rw [h0] at this
  have e : 2 * V3.dot u v / (2 * Real.sqrt (V3.dot u u)) = V3.dot u v / V3.norm u := by
    unfold V3.norm
    rw [mul_div_mul_left _ _ (two_ne_zero)]
  rw [e] at this
  exact this

/-- Energy-like total: half the sum over ordered pairs of different atoms of the squared overlap of their
spheres. -/
noncomputable def energy (n : ℕ) (R : ℕ → ℝ) (pos : ℕ → V3) : ℝ :=
  ∑ i ∈ Finset.range n, ∑ j ∈ Finset.range n,
    if i = j then 0 else (max 0 (R i + R j - V3.norm (V3.sub (pos j) (pos i)))) ^ 2 / 2

/-- Bonds of a finite structure: one from `i` to every other atom within `L`, with its length and vector. -/
noncomputable def clusterBonds (pos : ℕ → V3) (L : ℝ) (i j : ℕ) : List (Bnd ℝ) :=
  if i = j then [] else if V3.norm (V3.sub (pos j) (pos i)) ≤ L then
    [⟨V3.norm (V3.sub (pos j) (pos i)), (V3.sub (pos j) (pos i)).x, (V3.sub (pos j) (pos i)).y,
      (V3.sub (pos j) (pos i)).z⟩] else []

/-- Atom `k` displaced by `t e`. -/
noncomputable def move (pos : ℕ → V3) (k : ℕ) (e : V3) (t : ℝ) : ℕ → V3 :=
  Function.update pos k (V3.add (pos k) (V3.smul t e))

theorem spec_sum (c : ℕ → ℕ → List (Bnd ℝ)) (n : ℕ) (h : Contrib (Bnd ℝ) → ℝ) :
    ((specContribs c true (fun _ _ => true) n).map h).sum =
      ∑ i ∈ Finset.range n, ∑ j ∈ Finset.range n, ((c i j).map fun b => h ⟨i, j, 1, b⟩).sum := by
  have hf : ∀ {α : Type} (l : List α) (g : α → List (Contrib (Bnd ℝ))), ((l.flatMap g).map h).sum =
      (l.map fun a => ((g a).map h).sum).sum := by
    intro α l g
    induction l with
    | nil => rfl
    | cons a l ih => rw [List.flatMap_cons, List.map_append, List.sum_append, ih, List.map_cons, List.sum_cons]
  unfold specContribs
  rw [hf, finset_sum_range]
  congr 1
  refine List.map_congr_left fun i _ => ?_
  rw [hf, finset_sum_range]
  congr 1
  refine List.map_congr_left fun j _ => ?_
  simp only [true_or, true_and, if_true, List.map_map]
  rfl

theorem spec_sites (c : ℕ → ℕ → List (Bnd ℝ)) (full : Bool) (use : ℕ → ℕ → Bool) (n : ℕ) :
    ∀ x ∈ specContribs c full use n, x.i0 < n ∧ x.i1 < n := by
  intro x hx
  unfold specContribs at hx
  obtain ⟨i, hi, hx⟩ := List.mem_flatMap.1 hx
  obtain ⟨j, hj, hx⟩ := List.mem_flatMap.1 hx
  split at hx
  · obtain ⟨b, -, rfl⟩ := List.mem_map.1 hx
    exact ⟨List.mem_range.1 hi, List.mem_range.1 hj⟩
  · simp at hx

/-- C51. `totalSquareOverlap()` of a finite, fully occupied structure is `energy`. -/
theorem total_is_energy (s : Stru ℝ) (pos : ℕ → V3) (L : ℝ) (ho : ∀ i, s.occ i = 1) (hm : ∀ i, s.mult i = 1)
    (hL : ∀ i < s.cnt, ∀ j < s.cnt, s.radius i + s.radius j ≤ L) (rule : Bool) (gen : Gen (Bnd ℝ))
    (hg : GenSpec gen (clusterBonds pos L)) :
    totalSquareOverlap s (evalOverlap (basicTrace rule gen true (fun _ _ => true) s.cnt 0 1)) =
      energy s.cnt s.radius pos := by
  have hp := basic_serial_spec rule gen _ hg true (fun _ _ => true) s.cnt 0
  rw [totalSquareOverlap_spec s _ fun c hc => (spec_sites _ _ _ _ c (hp.mem_iff.1 hc)).1]
  unfold totalOf
  rw [(hp.map _).sum_eq, spec_sum]
  unfold energy
  refine Finset.sum_congr rfl fun i hi => Finset.sum_congr rfl fun j hj => ?_
  unfold clusterBonds
  by_cases hij : i = j
  · rw [if_pos hij, if_pos hij]; rfl
  · rw [if_neg hij, if_neg hij]
    by_cases hd : V3.norm (V3.sub (pos j) (pos i)) ≤ L
    · rw [if_pos hd]
      simp only [List.map_cons, List.map_nil, List.sum_cons, List.sum_nil, ho, hm, overlapOf]
      norm_num
    · rw [if_neg hd]
      have := hL i (Finset.mem_range.1 hi) j (Finset.mem_range.1 hj)
      rw [max_eq_left (by linarith)]
      simp

/-- C51. The vector `gradients()[k]` of a finite, fully occupied structure gives the rate of change of the
total square overlap for a displacement of atom `k` in any direction `e`. -/
theorem gradients_correct_partial (s : Stru ℝ) (pos : ℕ → V3) (L : ℝ)
    (hL : ∀ i < s.cnt, ∀ j < s.cnt, s.radius i + s.radius j ≤ L)
    (hsep : ∀ i < s.cnt, ∀ j < s.cnt, i ≠ j → V3.norm (V3.sub (pos j) (pos i)) ≠ 0)
    (rule : Bool) (gen : Gen (Bnd ℝ)) (hg : GenSpec gen (clusterBonds pos L)) (k : ℕ) (hk : k < s.cnt) (e : V3) :
    ∃ gx gy gz,
      (gradients s (evalOverlap (basicTrace rule gen true (fun _ _ => true) s.cnt 0 1)) 1)[k]? = some gx ∧
      (gradients s (evalOverlap (basicTrace rule gen true (fun _ _ => true) s.cnt 0 1)) 2)[k]? = some gy ∧
      (gradients s (evalOverlap (basicTrace rule gen true (fun _ _ => true) s.cnt 0 1)) 3)[k]? = some gz ∧
      HasDerivAt (fun t => energy s.cnt s.radius (move pos k e t)) (V3.dot ⟨gx, gy, gz⟩ e) 0 := by
  have hp := basic_serial_spec rule gen _ hg true (fun _ _ => true) s.cnt 0
  obtain ⟨h1, h2, h3⟩ := gradients_spec s (basicTrace rule gen true (fun _ _ => true) s.cnt 0 1) k hk
  refine ⟨_, _, _, h1, h2, h3, ?_⟩
  -- signed pair terms
  let A : ℕ → ℕ → ℝ := fun i j => if i = j then 0 else
    - max 0 (s.radius i + s.radius j - V3.norm (V3.sub (pos j) (pos i))) * V3.dot (V3.sub (pos j) (pos i)) e /
      V3.norm (V3.sub (pos j) (pos i))
  have hnorm : ∀ i j, V3.norm (V3.sub (pos j) (pos i)) = V3.norm (V3.sub (pos i) (pos j)) := by
    intro i j; unfold V3.norm; congr 1; simp only [V3.dot, V3.sub]; ring
  have hdot : ∀ i j, V3.dot (V3.sub (pos j) (pos i)) e = - V3.dot (V3.sub (pos i) (pos j)) e := by
    intro i j; simp only [V3.dot, V3.sub]; ring
  have hA : ∀ i j, A j i = - A i j := by
    intro i j
    simp only [A]
    by_cases hij : i = j
    · simp [hij]
    · rw [if_neg hij, if_neg (fun h => hij h.symm), hnorm j i, hdot j i, add_comm (s.radius j)]
      ring
  -- the gradient as a sum
  have hgrad : V3.dot ⟨((basicTrace rule gen true (fun _ _ => true) s.cnt 0 1).map fun c =>
        if c.i1 = k then -2 * overlapOf s.radius c / c.bond.d * c.bond.x else 0).sum,
      ((basicTrace rule gen true (fun _ _ => true) s.cnt 0 1).map fun c =>
        if c.i1 = k then -2 * overlapOf s.radius c / c.bond.d * c.bond.y else 0).sum,
      ((basicTrace rule gen true (fun _ _ => true) s.cnt 0 1).map fun c =>
        if c.i1 = k then -2 * overlapOf s.radius c / c.bond.d * c.bond.z else 0).sum⟩ e =
      ∑ i ∈ Finset.range s.cnt, 2 * A i k := by
    have e1 : V3.dot ⟨((basicTrace rule gen true (fun _ _ => true) s.cnt 0 1).map fun c =>
        if c.i1 = k then -2 * overlapOf s.radius c / c.bond.d * c.bond.x else 0).sum,
      ((basicTrace rule gen true (fun _ _ => true) s.cnt 0 1).map fun c =>
        if c.i1 = k then -2 * overlapOf s.radius c / c.bond.d * c.bond.y else 0).sum,
      ((basicTrace rule gen true (fun _ _ => true) s.cnt 0 1).map fun c =>
        if c.i1 = k then -2 * overlapOf s.radius c / c.bond.d * c.bond.z else 0).sum⟩ e =
        ((basicTrace rule gen true (fun _ _ => true) s.cnt 0 1).map fun c => if c.i1 = k then
          -2 * overlapOf s.radius c / c.bond.d * (c.bond.x * e.x + c.bond.y * e.y + c.bond.z * e.z) else 0).sum := by
      simp only [V3.dot]
      generalize basicTrace rule gen true (fun _ _ => true) s.cnt 0 1 = tr
      induction tr with
      | nil => simp
      | cons c tr ih =>
        simp only [List.map_cons, List.sum_cons, ← ih]
        by_cases hc : c.i1 = k
        · simp only [if_pos hc]; ring
        · simp only [if_neg hc]; ring
    rw [e1, (hp.map _).sum_eq, spec_sum]
    refine Finset.sum_congr rfl fun i hi => ?_
    rw [Finset.sum_eq_single k]
    · simp only [A, clusterBonds]
      by_cases hik : i = k
      · simp [hik]
      · rw [if_neg hik, if_neg hik]
        by_cases hd : V3.norm (V3.sub (pos k) (pos i)) ≤ L
        · rw [if_pos hd]
          simp only [List.map_cons, List.map_nil, List.sum_cons, List.sum_nil, if_true, overlapOf, V3.dot]
          ring
        · rw [if_neg hd]
          have := hL i (Finset.mem_range.1 hi) k hk
          rw [max_eq_left (by linarith)]
          simp
    · intro j _ hj
      rw [show ((clusterBonds pos L i j).map fun b => if (⟨i, j, 1, b⟩ : Contrib (Bnd ℝ)).i1 = k then
        -2 * overlapOf s.radius ⟨i, j, 1, b⟩ / b.d * (b.x * e.x + b.y * e.y + b.z * e.z) else 0) =
        (clusterBonds pos L i j).map fun _ => 0 from List.map_congr_left fun b _ => if_neg hj]
      simp
    · intro h; exact absurd (Finset.mem_range.2 hk) h
  rw [hgrad]
  -- the derivative as a sum
  have hderiv : HasDerivAt (fun t => energy s.cnt s.radius (move pos k e t))
      (∑ i ∈ Finset.range s.cnt, ∑ j ∈ Finset.range s.cnt,
        A i j * ((if j = k then 1 else 0) - (if i = k then 1 else 0))) 0 := by
    unfold energy
    refine HasDerivAt.fun_sum fun i hi => HasDerivAt.fun_sum fun j hj => ?_
    by_cases hij : i = j
    · simp only [A, if_pos hij, zero_mul]
      exact hasDerivAt_const _ _
    · simp only [A, if_neg hij]
      have hmv : ∀ t, V3.sub (move pos k e t j) (move pos k e t i) = V3.add (V3.sub (pos j) (pos i))
          (V3.smul t (V3.smul ((if j = k then 1 else 0) - (if i = k then 1 else 0)) e)) := by
        intro t
        unfold move
        simp only [Function.update_apply]
        by_cases hjk : j = k <;> by_cases hik : i = k
        · exact absurd (hik.trans hjk.symm) hij
        · rw [if_pos hjk, if_neg hik, if_pos hjk, if_neg hik, hjk]
          ext <;> simp only [V3.sub, V3.add, V3.smul] <;> ring
        · rw [if_neg hjk, if_pos hik, if_neg hjk, if_pos hik, hik]
          ext <;> simp only [V3.sub, V3.add, V3.smul] <;> ring
        · rw [if_neg hjk, if_neg hik, if_neg hjk, if_neg hik]
          ext <;> simp only [V3.sub, V3.add, V3.smul] <;> ring
      have hn := deriv_norm (V3.sub (pos j) (pos i))
        (V3.smul ((if j = k then 1 else 0) - (if i = k then 1 else 0)) e)
        (hsep i (Finset.mem_range.1 hi) j (Finset.mem_range.1 hj) hij)
      have hs := hn.const_sub (s.radius i + s.radius j)
      have h0 : s.radius i + s.radius j - V3.norm (V3.add (V3.sub (pos j) (pos i))
          (V3.smul 0 (V3.smul ((if j = k then 1 else 0) - (if i = k then 1 else 0)) e))) =
          s.radius i + s.radius j - V3.norm (V3.sub (pos j) (pos i)) := by
        congr 2
        ext <;> simp only [V3.sub, V3.add, V3.smul] <;> ring
      have hc := (deriv_maxsq (s.radius i + s.radius j - V3.norm (V3.add (V3.sub (pos j) (pos i))
          (V3.smul 0 (V3.smul ((if j = k then 1 else 0) - (if i = k then 1 else 0)) e))))).comp (0 : ℝ) hs
      have hc2 := hc.div_const 2
      rw [h0] at hc2
      refine (hc2.congr_deriv ?_).congr_of_eventuallyEq ?_
      · simp only [V3.dot, V3.smul]; ring
      · filter_upwards with t
        simp only [Function.comp]
        rw [hmv t]
  refine hderiv.congr_deriv ?_
  have e1 : (∑ i ∈ Finset.range s.cnt, ∑ j ∈ Finset.range s.cnt,
        A i j * ((if j = k then 1 else 0) - (if i = k then 1 else 0))) =
      (∑ i ∈ Finset.range s.cnt, ∑ j ∈ Finset.range s.cnt, if j = k then A i j else 0) -
      ∑ i ∈ Finset.range s.cnt, ∑ j ∈ Finset.range s.cnt, if i = k then A i j else 0 := by
    rw [← Finset.sum_sub_distrib]
    refine Finset.sum_congr rfl fun i _ => ?_
    rw [← Finset.sum_sub_distrib]
    refine Finset.sum_congr rfl fun j _ => ?_
    by_cases hj : j = k <;> by_cases hi : i = k <;> simp [hj, hi]
  rw [e1]
  have e2 : (∑ i ∈ Finset.range s.cnt, ∑ j ∈ Finset.range s.cnt, if j = k then A i j else 0) =
      ∑ i ∈ Finset.range s.cnt, A i k := by
    refine Finset.sum_congr rfl fun i _ => ?_
    rw [Finset.sum_ite_eq', if_pos (Finset.mem_range.2 hk)]
  have e3 : (∑ i ∈ Finset.range s.cnt, ∑ j ∈ Finset.range s.cnt, if i = k then A i j else 0) =
      - ∑ i ∈ Finset.range s.cnt, A i k := by
    rw [Finset.sum_comm, ← Finset.sum_neg_distrib]
    refine Finset.sum_congr rfl fun j _ => ?_
    rw [Finset.sum_ite_eq', if_pos (Finset.mem_range.2 hk), hA]
  rw [e2, e3, sub_neg_eq_add, ← Finset.sum_add_distrib]
  exact Finset.sum_congr rfl fun i _ => by ring

/-- A defect: `gradients()` ignores the occupancies that `totalSquareOverlap()` is weighted with.  With all
occupancies zero the total is zero wherever the atoms are, but the gradient is not. -/
theorem gradients_ignore_occupancy_bug :
    let s : Stru ℚ := { exStru with occ := fun _ => 0 }
    totalSquareOverlap s (evalOverlap exTrace) = 0 ∧ (∀ tr, (∀ c ∈ tr, c.i0 < s.cnt) → totalSquareOverlap s (evalOverlap tr) = 0) ∧
    gradients s (evalOverlap exTrace) 1 = [2, 2, -4] := by
  refine ⟨by decide +kernel, ?_, by decide +kernel⟩
  intro tr htr
  rw [totalSquareOverlap_spec _ tr htr]
  unfold totalOf
  have : ∀ l : List (Contrib (Bnd ℚ)), ∀ f : Contrib (Bnd ℚ) → ℚ, (∀ c ∈ l, f c = 0) → (l.map f).sum = 0 := by
    intro l f h
    rw [sum_congr_list l f (fun _ => 0) h]; simp
  exact this _ _ fun c _ => by simp

/-- The hypotheses of `gradients_correct_partial` are met by two overlapping atoms at distance one. -/
example : let pos : ℕ → V3 := fun i => ⟨i, 0, 0⟩
    let gen : Gen (Bnd ℝ) := fun i sel => sel.flatMap fun j => (clusterBonds pos 2 i j).map fun b => (j, b)
    GenSpec gen (clusterBonds pos 2) ∧ (∀ i < 2, ∀ j < 2, i ≠ j → V3.norm (V3.sub (pos j) (pos i)) ≠ 0) := by
  refine ⟨fun i sel => List.Perm.refl _, ?_⟩
  intro i hi j hj hij h
  unfold V3.norm at h
  rw [Real.sqrt_eq_zero (by simp only [V3.dot]; nlinarith [mul_self_nonneg ((V3.sub (⟨j, 0, 0⟩ : V3) ⟨i, 0, 0⟩).x)])] at h
  simp only [V3.dot, V3.sub] at h
  have : ((j : ℝ) - i) * (j - i) = 0 := by linarith
  have h2 : (j : ℝ) - i = 0 := by rcases mul_eq_zero.1 this with h | h <;> exact h
  exact hij (by exact_mod_cast (sub_eq_zero.1 h2).symm)

end Verif.Overlap
