import Verif.Props.Queries
import Mathlib.Tactic.Ring
import Mathlib.Data.List.GetD
import Mathlib.Algebra.BigOperators.Ring.List
import Mathlib.Algebra.BigOperators.Group.List.Basic
import Mathlib.Logic.Equiv.Basic
/-!
# C101: the results after the structure has been edited

Results that combine the bonds, radii and valences of the last evaluation with the structure as it is at the time of the query: bonds, distances and
overlaps are those of the evaluation, types, occupancies and multiplicities those of now.
-/
set_option linter.unusedSectionVars false
namespace Verif.Queries
open Verif.AssocMap

variable {K : Type} [Field K] [LinearOrder K] [IsStrictOrderedRing K]

/-! ### Specification -/

/-- The overlap of a bond, with the radii of the evaluation. -/
def olpOf (o : Olp K) (r : Rec K) : K := o.radii.getD r.i 0 + o.radii.getD r.j 0 - r.d

/-- The bonds of the evaluation between atoms that overlap. -/
def touching (o : Olp K) : List (Rec K) := o.recs.filter fun r => decide (0 < olpOf o r)

/-- The site with this index as it is now. -/
def siteNow (L : List (Site K)) (i : Nat) : Site K := L.getD i ⟨"", 0, 0⟩

/-- The sites of the overlapping bonds still exist. -/
def Exist (o : Olp K) (L : List (Site K)) : Prop := ∀ r ∈ touching o, r.i < L.length ∧ r.j < L.length

/-- No query for neighbours was made before the bonds were complete. -/
def Undisturbed (o : Olp K) : Prop := ∃ o0 : Olp K, o0.cached = false ∧ o0.nbrs = [] ∧ (o = o0 ∨ o = fill o0)

/-! ### Overlapping bonds -/

theorem rd_getD {v : List K} {i : Nat} (h : i < v.length) : rd v i = some (v.getD i 0) := by
  rw [rd_some h, List.getD_eq_getElem _ _ h]

theorem rd_site {L : List (Site K)} {i : Nat} (h : i < L.length) : rd L i = some (siteNow L i) := by
  rw [rd_some h]
  unfold siteNow
  rw [List.getD_eq_getElem _ _ h]

theorem loop_value {n : Nat} (o : Olp K) (hn : o.radii.length = n) (rs : List (Rec K)) (h : ∀ r ∈ rs, r.i < n ∧ r.j < n) :
    loop o rs = some ((rs.filter fun r => decide (0 < olpOf o r)).map fun r => (r, olpOf o r)) := by
  induction rs with
  | nil => rfl
  | cons r rs ih =>
    obtain ⟨hi, hj⟩ := h r (by simp)
    rw [← hn] at hi hj
    rw [loop, sub0, rd_getD hi, rd_getD hj, ih fun r hr => h r (by simp [hr])]
    have e : (if r.d < o.radii.getD r.i 0 + o.radii.getD r.j 0 then o.radii.getD r.i 0 + o.radii.getD r.j 0 - r.d else 0) =
        if 0 < olpOf o r then olpOf o r else 0 := by
      unfold olpOf
      by_cases hd : r.d < o.radii.getD r.i 0 + o.radii.getD r.j 0
      · rw [if_pos hd, if_pos (by linarith)]
      · rw [if_neg hd, if_neg (by linarith)]
    show some (if (if r.d < o.radii.getD r.i 0 + o.radii.getD r.j 0 then o.radii.getD r.i 0 + o.radii.getD r.j 0 - r.d else 0) ≤ 0 then _ else
      (r, if r.d < o.radii.getD r.i 0 + o.radii.getD r.j 0 then o.radii.getD r.i 0 + o.radii.getD r.j 0 - r.d else 0) :: _) = _
    rw [e, List.filter_cons]
    by_cases hp : 0 < olpOf o r
    · rw [if_pos hp, if_neg (not_le.2 hp), if_pos (decide_eq_true hp)]
      rfl
    · rw [if_neg hp, if_pos (le_refl _), if_neg (by simpa using not_lt.1 hp)]

theorem loop_touching {n : Nat} {o : Olp K} (h : Reach n o) : loop o o.recs = some ((touching o).map fun r => (r, olpOf o r)) :=
  loop_value o (inv_of_reach h).radii o.recs (inv_of_reach h).recs

/-- **C101.** Overlaps, distances, directions and site indices are those of the overlapping bonds of the evaluation, in their order. -/
theorem snapshot_values {n : Nat} {o : Olp K} (h : Reach n o) :
    overlaps o = some ((touching o).map (olpOf o)) ∧ distances o = some ((touching o).map (·.d)) ∧ directions o = some ((touching o).map (·.dir)) ∧
    sites0 o = some ((touching o).map (·.i)) ∧ sites1 o = some ((touching o).map (·.j)) := by
  unfold overlaps distances directions sites0 sites1
  rw [loop_touching h]
  simp [Function.comp_def]

theorem types_value (L : List (Site K)) (is : List Nat) (h : ∀ i ∈ is, i < L.length) : indicesToTypes L is = some (is.map fun i => (siteNow L i).typ) := by
  induction is with
  | nil => rfl
  | cons i is ih =>
    rw [indicesToTypes, rd_site (h i (by simp)), ih fun i hi => h i (by simp [hi])]
    rfl

/-- **C101.** Types are those that the sites have now. -/
theorem types_values {n : Nat} {o : Olp K} (h : Reach n o) (L : List (Site K)) (hL : Exist o L) :
    types0 o L = some ((touching o).map fun r => (siteNow L r.i).typ) ∧ types1 o L = some ((touching o).map fun r => (siteNow L r.j).typ) := by
  obtain ⟨-, -, -, h0, h1⟩ := snapshot_values h
  unfold types0 types1
  rw [h0, h1]
  constructor
  · show indicesToTypes L _ = _
    rw [types_value L _ (by simpa using fun r hr => (hL r hr).1), List.map_map]
    rfl
  · show indicesToTypes L _ = _
    rw [types_value L _ (by simpa using fun r hr => (hL r hr).2), List.map_map]
    rfl

/-! ### Sums over the bonds of a site -/

theorem accum_value (L : List (Site K)) (src : Rec K → Nat) (amount : K → Site K → K) (ls : List (Rec K × K)) (rv : List K)
    (h : ∀ p ∈ ls, p.1.i < rv.length ∧ src p.1 < L.length) :
    ∃ w, accum L (·.i) src amount ls rv = some w ∧ w.length = rv.length ∧
      ∀ k < rv.length, w.getD k 0 = rv.getD k 0 + ((ls.filter fun p => decide (p.1.i = k)).map fun p => amount p.2 (siteNow L (src p.1))).sum := by
  induction ls generalizing rv with
  | nil => exact ⟨rv, rfl, rfl, fun k _ => by simp⟩
  | cons p ls ih =>
    obtain ⟨r, olp⟩ := p
    obtain ⟨hi, hj⟩ := h (r, olp) (by simp)
    set rv1 := rv.modify r.i (· + amount olp (siteNow L (src r))) with hrv
    have hlen : rv1.length = rv.length := List.length_modify ..
    obtain ⟨w, w1, w2, w3⟩ := ih rv1 fun p hp => by rw [hlen]; exact h p (by simp [hp])
    refine ⟨w, ?_, w2.trans hlen, fun k hk => ?_⟩
    · rw [accum, rd_site hj]
      show (upd rv r.i _).bind _ = _
      rw [upd_some _ hi]
      exact w1
    · rw [w3 k (by rw [hlen]; exact hk), List.filter_cons]
      have hm : rv1.getD k 0 = if r.i = k then rv.getD k 0 + amount olp (siteNow L (src r)) else rv.getD k 0 := by
        rw [List.getD_eq_getElem _ _ (by rw [hlen]; exact hk), List.getD_eq_getElem _ _ hk]
        simp only [hrv, List.getElem_modify]
      rw [hm]
      by_cases hk' : r.i = k
      · rw [if_pos hk', if_pos (by simpa using hk'), List.map_cons, List.sum_cons]
        ring
      · rw [if_neg hk', if_neg (by simpa using hk')]

theorem getD_replicate (m k : Nat) : (List.replicate m (0 : K)).getD k 0 = 0 := by
  rw [List.getD_eq_getElem?_getD, List.getElem?_getD_replicate_default_eq]

/-- The sum of `f` over the overlapping bonds that start at site `k`. -/
def overBonds (o : Olp K) (k : Nat) (f : Rec K → K) : K := (((touching o).filter fun r => decide (r.i = k)).map f).sum

theorem accum_zero {n : Nat} {o : Olp K} (h : Reach n o) (L : List (Site K)) (hL : Exist o L) (amount : K → Site K → K) :
    (do let rs ← loop o o.recs; accum L (·.i) (·.j) amount rs (List.replicate L.length 0)) =
      some ((List.range L.length).map fun k => overBonds o k fun r => amount (olpOf o r) (siteNow L r.j)) := by
  rw [loop_touching h]
  obtain ⟨w, w1, w2, w3⟩ := accum_value L (·.j) amount ((touching o).map fun r => (r, olpOf o r)) (List.replicate L.length 0) (by
    intro p hp
    obtain ⟨r, hr, rfl⟩ := List.mem_map.1 hp
    rw [List.length_replicate]
    exact hL r hr)
  rw [List.length_replicate] at w2 w3
  refine w1.trans (congrArg some (List.ext_getElem (by rw [w2]; simp) fun k h1 h2 => ?_))
  have := w3 k (by rw [← w2]; exact h1)
  rw [List.getD_eq_getElem _ _ h1, getD_replicate, zero_add, List.filter_map, List.map_map] at this
  rw [this, List.getElem_map, List.getElem_range]
  rfl

/-- **C101.** Square overlaps: the sum over the overlapping bonds of a site of the overlap squared times the occupancy that the other end has now, halved. -/
theorem square_values {n : Nat} {o : Olp K} (h : Reach n o) (L : List (Site K)) (hL : Exist o L) :
    siteSquareOverlaps o L = some ((List.range L.length).map fun k => overBonds o k (fun r => olpOf o r ^ 2 * (siteNow L r.j).occ) / 2) := by
  have e := accum_zero h L hL fun olp s => olp * olp * s.occ
  have hdef : siteSquareOverlaps o L = (do let rs ← loop o o.recs; accum L (·.i) (·.j) (fun olp s => olp * olp * s.occ) rs (List.replicate L.length 0)).bind
      fun rv => some (rv.map (· / 2)) := by
    unfold siteSquareOverlaps
    cases loop o o.recs <;> rfl
  rw [hdef, e, Option.bind_some, List.map_map]
  refine congrArg some (List.map_congr_left fun k _ => ?_)
  simp only [Function.comp_apply, pow_two]

/-- **C101.** Coordinations: the sum of the occupancies that the other ends of the overlapping bonds have now. -/
theorem coordination_values {n : Nat} {o : Olp K} (h : Reach n o) (L : List (Site K)) (hL : Exist o L) :
    coordinations o L = some ((List.range L.length).map fun k => overBonds o k fun r => (siteNow L r.j).occ) :=
  accum_zero h L hL fun _ s => s.occ

theorem sum_partition (L : List (Site K)) (rs : List (Rec K)) (f : Rec K → K) (g : Nat → K) (h : ∀ r ∈ rs, r.i < L.length) :
    ((List.range L.length).map fun k => ((rs.filter fun r => decide (r.i = k)).map f).sum * g k).sum = (rs.map fun r => f r * g r.i).sum := by
  induction rs with
  | nil => simp
  | cons r rs ih =>
    rw [List.map_cons, List.sum_cons, ← ih fun r hr => h r (by simp [hr])]
    have e : ∀ k, ((((r :: rs).filter fun r => decide (r.i = k)).map f).sum * g k) =
        (if r.i = k then f r * g r.i else 0) + ((rs.filter fun r => decide (r.i = k)).map f).sum * g k := by
      intro k
      rw [List.filter_cons]
      by_cases hk : r.i = k
      · rw [if_pos (by simpa using hk), if_pos hk, List.map_cons, List.sum_cons, hk]
        ring
      · rw [if_neg (by simpa using hk), if_neg hk, zero_add]
    simp only [e, List.sum_map_add]
    congr 1
    have hr := h r (by simp)
    have : ∀ m, ((List.range m).map fun k => if r.i = k then f r * g r.i else 0).sum = if r.i < m then f r * g r.i else 0 := by
      intro m
      induction m with
      | zero => simp
      | succ m ihm =>
        rw [List.range_succ, List.map_append, List.sum_append, ihm]
        by_cases h1 : r.i < m
        · rw [if_pos h1, if_pos (by omega)]
          simp [show r.i ≠ m by omega]
        · by_cases h2 : r.i = m
          · rw [if_neg h1, if_pos (by omega)]
            simp [h2]
          · rw [if_neg h1, if_neg (by omega)]
            simp [h2]
    rw [this, if_pos hr]

/-- **C101.** The total: over all overlapping bonds, the overlap squared times the present occupancies of both ends and the multiplicity of the first, halved. -/
theorem total_value {n : Nat} {o : Olp K} (h : Reach n o) (L : List (Site K)) (hL : Exist o L) :
    totalSquareOverlap o L = some (((touching o).map fun r => olpOf o r ^ 2 * (siteNow L r.j).occ * (siteNow L r.i).occ * (siteNow L r.i).mult).sum / 2) := by
  unfold totalSquareOverlap
  rw [square_values h L hL]
  show some _ = _
  congr 1
  have e : List.zipWith (fun x (s : Site K) => x * s.mult * s.occ)
      ((List.range L.length).map fun k => overBonds o k (fun r => olpOf o r ^ 2 * (siteNow L r.j).occ) / 2) L =
      (List.range L.length).map fun k => overBonds o k (fun r => olpOf o r ^ 2 * (siteNow L r.j).occ) * ((siteNow L k).mult * (siteNow L k).occ / 2) := by
    refine List.ext_getElem (by simp) fun k h1 h2 => ?_
    simp only [List.getElem_zipWith, List.getElem_map, List.getElem_range]
    have hk : k < L.length := by simpa using h2
    have : L[k] = siteNow L k := by unfold siteNow; rw [List.getD_eq_getElem _ _ hk]
    rw [this]
    ring
  rw [e]
  have := sum_partition L (touching o) (fun r => olpOf o r ^ 2 * (siteNow L r.j).occ) (fun k => (siteNow L k).mult * (siteNow L k).occ / 2) fun r hr => (hL r hr).1
  refine this.trans ?_
  rw [div_eq_mul_inv, ← List.sum_map_mul_right]
  congr 1
  refine List.map_congr_left fun r _ => ?_
  ring

/-- The share of a bond in the gradient of the atom at its end. -/
def pull (o : Olp K) (r : Rec K) : K := -2 * olpOf o r / r.d

/-- Sum over the overlapping bonds that end at site `k`. -/
def overEnds (o : Olp K) (k : Nat) (f : Rec K → K) : K := (((touching o).filter fun r => decide (r.j = k)).map f).sum

theorem grad_value (o : Olp K) (rs : List (Rec K)) (rv : List (K × K × K)) (h : ∀ r ∈ rs, r.j < rv.length) :
    ∃ w, gradLoop (rs.map fun r => (r, olpOf o r)) rv = some w ∧ w.length = rv.length ∧ ∀ k < rv.length,
      (w.getD k 0).1 = (rv.getD k 0).1 + ((rs.filter fun r => decide (r.j = k)).map fun r => pull o r * r.dir.1).sum ∧
      (w.getD k 0).2.1 = (rv.getD k 0).2.1 + ((rs.filter fun r => decide (r.j = k)).map fun r => pull o r * r.dir.2.1).sum ∧
      (w.getD k 0).2.2 = (rv.getD k 0).2.2 + ((rs.filter fun r => decide (r.j = k)).map fun r => pull o r * r.dir.2.2).sum := by
  induction rs generalizing rv with
  | nil => exact ⟨rv, rfl, rfl, fun k _ => by simp⟩
  | cons r rs ih =>
    have hj := h r (by simp)
    set rv1 := rv.modify r.j (fun v => (v.1 + pull o r * r.dir.1, v.2.1 + pull o r * r.dir.2.1, v.2.2 + pull o r * r.dir.2.2)) with hrv
    have hlen : rv1.length = rv.length := by simp [hrv]
    obtain ⟨w, hw, hl, hv⟩ := ih rv1 fun q hq => by rw [hlen]; exact h q (by simp [hq])
    refine ⟨w, ?_, hl.trans hlen, fun k hk => ?_⟩
    · show (upd rv r.j _).bind _ = some w
      unfold upd
      rw [if_pos hj]
      exact hw
    · have h1 : rv1.getD k 0 = if r.j = k then ((rv.getD k 0).1 + pull o r * r.dir.1, (rv.getD k 0).2.1 + pull o r * r.dir.2.1, (rv.getD k 0).2.2 + pull o r * r.dir.2.2) else rv.getD k 0 := by
        rw [List.getD_eq_getElem _ _ (by omega), List.getD_eq_getElem _ _ hk]
        simp only [hrv, List.getElem_modify]
      obtain ⟨v1, v2, v3⟩ := hv k (by omega)
      rw [v1, v2, v3, h1]
      by_cases hk1 : r.j = k
      · simp [hk1, add_assoc]
      · simp [hk1]

/-- **C101.** The gradient at a site: over the overlapping bonds ending there, minus twice the overlap over the distance, along the bond. -/
theorem gradient_values {n : Nat} {o : Olp K} (h : Reach n o) (L : List (Site K)) (hL : Exist o L) :
    gradients o L = some ((List.range L.length).map fun k =>
      (overEnds o k (fun r => pull o r * r.dir.1), overEnds o k (fun r => pull o r * r.dir.2.1), overEnds o k (fun r => pull o r * r.dir.2.2))) := by
  unfold gradients
  rw [loop_touching h]
  obtain ⟨w, hw, hl, hv⟩ := grad_value o (touching o) (List.replicate L.length (0, 0, 0)) fun r hr => by simpa using (hL r hr).2
  show gradLoop _ _ = _
  rw [hw]
  congr 1
  refine List.ext_getElem (by simpa using hl) fun k h1 h2 => ?_
  have hk : k < L.length := by simpa using h2
  obtain ⟨v1, v2, v3⟩ := hv k (by simpa using hk)
  have e : (List.replicate L.length ((0, 0, 0) : K × K × K)).getD k 0 = (0, 0, 0) := by
    rw [List.getD_eq_getElem _ _ (by simpa using hk)]
    simp
  rw [e, List.getD_eq_getElem _ _ h1] at v1 v2 v3
  simp only [List.getElem_map, List.getElem_range, overEnds]
  exact Prod.ext (v1.trans (zero_add _)) (Prod.ext (v2.trans (zero_add _)) (v3.trans (zero_add _)))

/-! ### Neighbours -/

theorem undisturbed_ids {o : Olp K} (h : Undisturbed o) (k : Nat) :
    neighborIds o k = (List.range o.recs.length).filter fun x => decide (o.recs[x]?.map (·.i) = some k) := by
  obtain ⟨o0, hc, hn, ho⟩ := h
  have key : ∀ o1 : Olp K, o1 = o0 ∨ o1 = fill o0 → fill o1 = fill o0 := by
    rintro o1 (rfl | rfl)
    · rfl
    · exact fill_fill _
  have hr : o.recs = o0.recs := by
    rcases ho with rfl | rfl
    · rfl
    · exact fill_recs _
  unfold neighborIds
  rw [key o ho, hr]
  unfold fill
  rw [if_neg (by simp [hc]), hn]
  exact fold_nbrs o0.recs k _ le_rfl

theorem recsAt_filter (o : Olp K) (p : Rec K → Bool) :
    recsAt o ((List.range o.recs.length).filter fun x => (o.recs[x]?.map p).getD false) = some (o.recs.filter p) := by
  have key : ∀ m ≤ o.recs.length, recsAt o ((List.range m).filter fun x => (o.recs[x]?.map p).getD false) = some ((o.recs.take m).filter p) := by
    have happ : ∀ l x r, recsAt o l = some r → ∀ a, o.recs[x]? = some a → recsAt o (l ++ [x]) = some (r ++ [a]) := by
      intro l
      induction l with
      | nil =>
        intro x r hr a ha
        cases hr
        show (rd o.recs x).bind _ = _
        unfold rd
        rw [ha]
        rfl
      | cons y l ih =>
        intro x r hr a ha
        rw [recsAt] at hr
        simp only [bind, Option.bind_eq_some_iff, pure, Option.some.injEq] at hr
        obtain ⟨b, hb, rest, hrest, rfl⟩ := hr
        rw [List.cons_append, recsAt, hb, ih x rest hrest a ha]
        rfl
    intro m
    induction m with
    | zero => intro _; rfl
    | succ m ih =>
      intro hm
      have hm' : m < o.recs.length := hm
      rw [List.range_succ, List.filter_append, List.take_succ_eq_append_getElem hm', List.filter_append]
      by_cases hp : p o.recs[m] = true
      · have e : [m].filter (fun x => (o.recs[x]?.map p).getD false) = [m] := by simp [hm', hp]
        have e' : [o.recs[m]].filter p = [o.recs[m]] := by simp [hp]
        rw [e, e']
        exact happ _ _ _ (ih (by omega)) _ (List.getElem?_eq_getElem hm')
      · have e : [m].filter (fun x => (o.recs[x]?.map p).getD false) = [] := by simp [hm', hp]
        have e' : [o.recs[m]].filter p = [] := by simp [hp]
        rw [e, e', List.append_nil, List.append_nil]
        exact ih (by omega)
  have := key o.recs.length (le_refl _)
  rwa [List.take_length] at this

theorem recs_of_site {o : Olp K} (h : Undisturbed o) (k : Nat) : recsAt o (neighborIds o k) = some (o.recs.filter fun r => decide (r.i = k)) := by
  rw [undisturbed_ids h, ← recsAt_filter o fun r => decide (r.i = k)]
  congr 1
  refine List.filter_congr fun x hx => ?_
  rw [List.mem_range] at hx
  rw [List.getElem?_eq_getElem hx]
  simp

theorem loop_site {n : Nat} {o : Olp K} (h : Reach n o) (k : Nat) :
    loop o (o.recs.filter fun r => decide (r.i = k)) = some (((touching o).filter fun r => decide (r.i = k)).map fun r => (r, olpOf o r)) := by
  rw [loop_value o (inv_of_reach h).radii _ fun r hr => (inv_of_reach h).recs r (List.mem_of_mem_filter hr)]
  unfold touching
  rw [List.filter_filter, List.filter_filter]
  congr 3
  funext r
  exact Bool.and_comm _ _

/-- **C101.** The neighbours of a site: the other ends of its overlapping bonds. -/
theorem neighbor_values {n : Nat} {o : Olp K} (h : Reach n o) (hu : Undisturbed o) (k : Nat) :
    neighborSites o k = some (((touching o).filter fun r => decide (r.i = k)).map (·.j)) := by
  unfold neighborSites
  rw [recs_of_site hu]
  show (loop o _).bind _ = _
  rw [loop_site h, Option.bind_some, List.map_map]
  rfl

theorem byType_value (L : List (Site K)) (k : Nat) (ls : List (Rec K × K)) (rv : List (String × K)) (h : ∀ p ∈ ls, p.1.i = k ∧ p.1.j < L.length) :
    ∃ w, byTypeLoop L k ls rv = some w ∧ ∀ tp, (find w tp).getD 0 =
      (find rv tp).getD 0 + ((ls.filter fun p => decide ((siteNow L p.1.j).typ = tp)).map fun p => (siteNow L p.1.j).occ).sum := by
  induction ls generalizing rv with
  | nil => exact ⟨rv, rfl, fun tp => by simp⟩
  | cons p ls ih =>
    obtain ⟨r, olp⟩ := p
    obtain ⟨hi, hj⟩ := h (r, olp) (by simp)
    obtain ⟨w, w1, w2⟩ := ih (put rv (siteNow L r.j).typ ((find rv (siteNow L r.j).typ).getD 0 + (siteNow L r.j).occ)) fun p hp => h p (by simp [hp])
    refine ⟨w, ?_, fun tp => ?_⟩
    · rw [byTypeLoop, if_pos hi, rd_site hj]
      exact w1
    · rw [w2, find_put, List.filter_cons]
      by_cases ht : (siteNow L r.j).typ = tp
      · rw [if_pos ht.symm, if_pos (by simpa using ht), List.map_cons, List.sum_cons, ht]
        show _ + _ + _ = _
        ring
      · rw [if_neg fun e => ht e.symm, if_neg (by simpa using ht)]

/-- **C101.** Coordinations by types: the present occupancies of the other ends, by the types they have now. -/
theorem byType_values {n : Nat} {o : Olp K} (h : Reach n o) (hu : Undisturbed o) (L : List (Site K)) (k : Nat)
    (hL : ∀ r ∈ touching o, r.i = k → r.j < L.length) :
    ∃ w, coordinationByTypes o L k = some w ∧ ∀ tp, (find w tp).getD 0 =
      (((touching o).filter fun r => decide (r.i = k ∧ (siteNow L r.j).typ = tp)).map fun r => (siteNow L r.j).occ).sum := by
  obtain ⟨w, w1, w2⟩ := byType_value L k (((touching o).filter fun r => decide (r.i = k)).map fun r => (r, olpOf o r)) [] (by
    intro p hp
    obtain ⟨r, hr, rfl⟩ := List.mem_map.1 hp
    obtain ⟨h1, h2⟩ := List.mem_filter.1 hr
    have h2 : r.i = k := by simpa using h2
    exact ⟨h2, hL r h1 h2⟩)
  refine ⟨w, ?_, fun tp => ?_⟩
  · unfold coordinationByTypes
    rw [recs_of_site hu]
    show (loop o _).bind _ = _
    rw [loop_site h]
    exact w1
  · rw [w2, List.filter_map, List.map_map, List.filter_filter]
    show 0 + _ = _
    rw [zero_add]
    refine congrArg List.sum (congrArg (List.map _) (List.filter_congr fun r _ => ?_))
    show (decide _ && decide _) = decide _
    rw [Bool.eq_iff_iff]
    simp only [Bool.and_eq_true, decide_eq_true_eq]
    exact And.comm

/-! ### Exchanging the radii of two sites -/

/-- The overlap of a bond when the sites have the radii of the sites `f` (zero when they do not touch). -/
def olpWith (o : Olp K) (f : Nat → Nat) (r : Rec K) : K := max (o.radii.getD (f r.i) 0 + o.radii.getD (f r.j) 0 - r.d) 0

/-- The weight of a bond in the total: present occupancies of both ends, multiplicity of the first; bonds between different sites count from both ends. -/
def weightNow (L : List (Site K)) (r : Rec K) : K := (if r.i = r.j then 1 else 2) * (siteNow L r.i).occ * (siteNow L r.j).occ * (siteNow L r.i).mult / 2

theorem sub_value (o : Olp K) (r : Rec K) (i j : Nat) (h : r.i < o.radii.length ∧ r.j < o.radii.length) (hi : i < o.radii.length) (hj : j < o.radii.length) :
    suboverlap o r i j = some (olpWith o (Equiv.swap i j) r) := by
  have hx : ∀ k, (if i = j then k else if k = i then j else if k = j then i else k) = Equiv.swap i j k := by
    intro k
    rw [Equiv.swap_apply_def]
    by_cases hij : i = j
    · subst hij
      rw [if_pos rfl]
      split
      · next h => exact h
      · rfl
    · rw [if_neg hij]
  have h1 := flip_index i j r.i _ h.1 hi hj
  have h2 := flip_index i j r.j _ h.2 hi hj
  unfold suboverlap
  rw [rd_getD h1, rd_getD h2, hx, hx]
  show some (if _ then _ else _) = some _
  unfold olpWith
  split
  · next h => rw [max_eq_left (by linarith)]
  · next h => rw [max_eq_right (by linarith)]

theorem flip_value (o : Olp K) (L : List (Site K)) (i j : Nat) (hi : i < o.radii.length) (hj : j < o.radii.length) (rs : List (Rec K)) (rv : K)
    (h : ∀ r ∈ rs, r.i < o.radii.length ∧ r.j < o.radii.length) (hL : ∀ r ∈ rs, r.i < L.length ∧ r.j < L.length) :
    flipLoop o L i j rs rv = some (rv + (rs.map fun r => weightNow L r * (olpWith o (Equiv.swap i j) r ^ 2 - olpWith o id r ^ 2)).sum) := by
  induction rs generalizing rv with
  | nil => simp [flipLoop]
  | cons r rs ih =>
    obtain ⟨l1, l2⟩ := hL r (by simp)
    have hp : 0 < o.radii.length := by omega
    have e0 : suboverlap o r 0 0 = some (olpWith o id r) := by
      rw [sub_value o r 0 0 (h r (by simp)) hp hp, Equiv.swap_self]
      rfl
    rw [flipLoop, rd_site l1, rd_site l2, e0, sub_value o r i j (h r (by simp)) hi hj]
    show flipLoop o L i j rs (rv - weightNow L r * _ * _ + weightNow L r * _ * _) = _
    rw [ih _ (fun q hq => h q (by simp [hq])) fun q hq => hL q (by simp [hq]), List.map_cons, List.sum_cons]
    congr 1
    ring

/-- **C101.** The change of the total when two sites exchange their radii: over the bonds that begin at either, whatever the order of the hash set;
with the present number of sites equal to that of the evaluation. -/
theorem flip_values {n : Nat} {o : Olp K} (h : Reach n o) (hu : Undisturbed o) (L : List (Site K)) (hL : L.length = n)
    (order : List Nat → List Nat) (ho : ∀ l, (order l).Perm l) (i j : Nat) :
    ∃ x, flipDiffTotal o L order i j = some x ∧ (i < n → j < n → x = .num (((o.recs.filter fun r => decide (r.i = i ∨ r.i = j)).map fun r =>
      weightNow L r * (olpWith o (Equiv.swap i j) r ^ 2 - olpWith o id r ^ 2)).sum)) ∧ (n ≤ i ∨ n ≤ j → x = .rejected) := by
  have hI := inv_of_reach h
  unfold flipDiffTotal
  by_cases hb : i ≥ L.length ∨ j ≥ L.length
  · rw [if_pos hb]
    exact ⟨_, rfl, fun h1 h2 => absurd hb (by omega), fun _ => rfl⟩
  · rw [if_neg hb]
    have hi : i < n := by omega
    have hj : j < n := by omega
    have hi' : i < o.radii.length := by rw [hI.radii]; exact hi
    have hj' : j < o.radii.length := by rw [hI.radii]; exact hj
    have zero : o.radii.getD i 0 = o.radii.getD j 0 → ((o.recs.filter fun r => decide (r.i = i ∨ r.i = j)).map fun r =>
        weightNow L r * (olpWith o (Equiv.swap i j) r ^ 2 - olpWith o id r ^ 2)).sum = 0 := by
      intro he
      have hs : ∀ k, o.radii.getD (Equiv.swap i j k) 0 = o.radii.getD k 0 := by
        intro k
        rw [Equiv.swap_apply_def]
        split
        · next h => rw [h, he]
        · split
          · next h => rw [h, he]
          · rfl
      refine List.sum_eq_zero fun x hx => ?_
      obtain ⟨r, -, rfl⟩ := List.mem_map.1 hx
      unfold olpWith
      rw [hs, hs]
      simp
    refine ⟨.num (((o.recs.filter fun r => decide (r.i = i ∨ r.i = j)).map fun r =>
      weightNow L r * (olpWith o (Equiv.swap i j) r ^ 2 - olpWith o id r ^ 2)).sum), ?_, fun _ _ => rfl, fun h => absurd h (by omega)⟩
    by_cases hij : i = j
    · rw [if_pos hij, zero (by rw [hij])]
      rfl
    · rw [if_neg hij, rd_getD hi', rd_getD hj']
      show (if decide (_ = _) = true then some (Flip.num (0 : K)) else
        (recsAt o (order ((neighborIds o i) ++ (neighborIds o j)).dedup)).bind fun rs =>
          (flipLoop o L i j rs 0).bind fun x => some (Flip.num x)) = _
      by_cases he : o.radii.getD i 0 = o.radii.getD j 0
      · rw [if_pos (by simpa using he), zero he]
      · rw [if_neg (by simpa using he)]
        set ids := (List.range o.recs.length).filter fun x => (o.recs[x]?.map fun r => decide (r.i = i ∨ r.i = j)).getD false with hids
        have hp : (order ((neighborIds o i) ++ (neighborIds o j)).dedup).Perm ids := by
          refine (ho _).trans ((List.perm_ext_iff_of_nodup (List.nodup_dedup _) (List.Nodup.filter _ List.nodup_range)).2 fun x => ?_)
          rw [List.mem_dedup, List.mem_append, undisturbed_ids hu, undisturbed_ids hu]
          simp only [List.mem_filter, List.mem_range, decide_eq_true_eq]
          by_cases hx : x < o.recs.length
          · rw [List.getElem?_eq_getElem hx]
            simp [hx]
          · simp [hx]
        have hval : ∀ l : List Nat, (∀ x ∈ l, x < o.recs.length) → recsAt o l = some (l.map fun x => o.recs.getD x ⟨0, (0, 0, 0), 0, 0⟩) := by
          intro l
          induction l with
          | nil => intro _; rfl
          | cons x l ih =>
            intro hl
            have hx := hl x (by simp)
            rw [recsAt, rd_some hx, ih fun y hy => hl y (by simp [hy]), List.map_cons, List.getD_eq_getElem _ _ hx]
            rfl
        have hb1 : ∀ x ∈ ids, x < o.recs.length := fun x hx => List.mem_range.1 (List.mem_filter.1 hx).1
        have h1 := hval _ fun x hx => hb1 x (hp.mem_iff.1 hx)
        have h2 := hval ids hb1
        have h3 : recsAt o ids = some (o.recs.filter fun r => decide (r.i = i ∨ r.i = j)) := recsAt_filter o _
        have h4 := Option.some.inj (h2.symm.trans h3)
        have hperm := (hp.map fun x => o.recs.getD x ⟨0, (0, 0, 0), 0, 0⟩)
        rw [h4] at hperm
        have hmem : ∀ r ∈ (order ((neighborIds o i) ++ (neighborIds o j)).dedup).map fun x => o.recs.getD x ⟨0, (0, 0, 0), 0, 0⟩, r.i < n ∧ r.j < n :=
          fun r hr => hI.recs r (List.mem_of_mem_filter (hperm.mem_iff.1 hr))
        rw [h1, Option.bind_some, flip_value o L i j hi' hj' _ 0 (by rw [hI.radii]; exact hmem) (by rw [hL]; exact hmem), Option.bind_some, zero_add,
          (hperm.map _).sum_eq]

/-! ### Bond valences -/

theorem diff_value (b : Bvs K) (m i : Nat) (h1 : i + m ≤ b.vobs.length) (h2 : i + m ≤ b.vsim.length) :
    diffLoop b m i = some ((List.range m).map fun k => |b.vobs.getD (i + k) 0| - |b.vsim.getD (i + k) 0|) := by
  induction m generalizing i with
  | zero => rfl
  | succ m ih =>
    rw [diffLoop, rd_getD (by omega), rd_getD (by omega), ih (i + 1) (by omega) (by omega), List.range_succ_eq_map, List.map_cons, List.map_map]
    show some (_ :: _) = some (_ :: _)
    rw [Nat.add_zero]
    congr 2
    refine List.map_congr_left fun k _ => ?_
    simp only [Function.comp_apply]
    rw [show i + 1 + k = i + k.succ by omega]

/-- **C101.** Differences of valences for the present sites, and their mean square with the present occupancies and multiplicities. -/
theorem bv_values (b : Bvs K) (n : Nat) (h1 : b.vobs.length = n) (h2 : b.vsim.length = n) (L : List (Site K)) (hL : L.length ≤ n) :
    let diff := fun k => |b.vobs.getD k 0| - |b.vsim.getD k 0|
    bvdiff b L = some ((List.range L.length).map diff) ∧
    bvmsdiff b L = some (if 0 < (L.map fun s => s.occ * s.mult).sum then
      ((List.range L.length).map fun k => (siteNow L k).mult * (siteNow L k).occ * diff k ^ 2).sum / (L.map fun s => s.occ * s.mult).sum else 0) := by
  intro diff
  have hb : bvdiff b L = some ((List.range L.length).map diff) := by
    unfold bvdiff
    rw [diff_value b _ _ (by omega) (by omega)]
    simp only [Nat.zero_add]
    rfl
  refine ⟨hb, ?_⟩
  have hdef : bvmsdiff b L = (bvdiff b L).bind fun bd => some (if totalOccupancy L > 0 then
    (List.zipWith (fun x (s : Site K) => s.mult * s.occ * x * x) bd L).sum / totalOccupancy L else 0) := rfl
  rw [hdef, hb, Option.bind_some]
  have e : List.zipWith (fun x (s : Site K) => s.mult * s.occ * x * x) ((List.range L.length).map diff) L =
      (List.range L.length).map fun k => (siteNow L k).mult * (siteNow L k).occ * diff k ^ 2 := by
    refine List.ext_getElem (by simp) fun k h1 h2 => ?_
    simp only [List.getElem_zipWith, List.getElem_map, List.getElem_range]
    have hk : k < L.length := by simpa using h2
    have : L[k] = siteNow L k := by unfold siteNow; rw [List.getD_eq_getElem _ _ hk]
    rw [this]
    ring
  rw [e]
  rfl

/-- **C101.** The types of the bonds of BondCalculator. -/
theorem bond_type_values (recs : List (Rec K)) (L : List (Site K)) (h : ∀ r ∈ recs, r.i < L.length ∧ r.j < L.length) :
    bondTypes0 recs L = some (recs.map fun r => (siteNow L r.i).typ) ∧ bondTypes1 recs L = some (recs.map fun r => (siteNow L r.j).typ) := by
  unfold bondTypes0 bondTypes1
  rw [types_value L _ (by simpa using fun r hr => (h r hr).1), types_value L _ (by simpa using fun r hr => (h r hr).2), List.map_map, List.map_map]
  exact ⟨rfl, rfl⟩

/-! ### Examples -/

theorem exUndisturbed : Undisturbed exOlp := ⟨exOlp, rfl, rfl, Or.inl rfl⟩

/-- The two sites after an edit: other types, half of the second. -/
def exEdited : List (Site ℚ) := [⟨"K", 1, 1⟩, ⟨"F", 1 / 2, 1⟩]

example : Exist exOlp exEdited := by
  intro r hr
  have := List.mem_of_mem_filter hr
  simp only [exOlp, exRecs, merge, reset, List.nil_append, List.mem_cons, List.not_mem_nil, or_false] at this
  rcases this with rfl | rfl <;> simp [exEdited]

/-- Half of the neighbour: its share in the coordination and in the square overlap of the first site is halved, not that of the first in its own. -/
example : siteSquareOverlaps exOlp exEdited = some [1 / 4, 1 / 2] ∧ coordinations exOlp exEdited = some [1 / 2, 1] ∧
    totalSquareOverlap exOlp exEdited = some (1 / 2) := by decide +kernel

example : gradients exOlp exEdited = some [(2, 0, 0), (-2, 0, 0)] := by decide +kernel

/-- Other radii: exchanging them does not change the one pair, which counts once. -/
example : (match flipDiffTotal (merge (reset [1, 2]) exRecs) exEdited (fun l => l) 0 1 with | some (.num x) => some x | _ => none) = some 0 := by decide +kernel

end Verif.Queries
