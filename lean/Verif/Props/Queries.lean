import Verif.Model.Queries
import Mathlib.Tactic.Linarith
import Mathlib.Algebra.Order.Ring.Rat
import Mathlib.Algebra.Field.Rat
/-!
# C76: queries of results after the structure has been edited

Results of OverlapCalculator, BVSCalculator and BondCalculator combine data of the last evaluation with the
structure as it is at the time of the query.  The theorems say exactly when a query stays inside its arrays.
-/
set_option linter.unusedSectionVars false
namespace Verif.Queries
open Verif.AssocMap

variable {K : Type} [Field K] [LinearOrder K] [IsStrictOrderedRing K]

/-! ### Specification -/

/-- States of an OverlapCalculator between two calls of `eval` for a structure of `n` sites: after the reset,
after bonds of the structure were recorded (by summation or by merging parallel data) and after queries. -/
inductive Reach (n : Nat) : Olp K → Prop
  | reset (radii : List K) : radii.length = n → Reach n (reset radii)
  | bonds (o : Olp K) (p : List (Rec K)) : Reach n o → (∀ r ∈ p, r.i < n ∧ r.j < n) → Reach n (merge o p)
  | query (o : Olp K) : Reach n o → Reach n (fill o)

/-- The record is of two atoms that overlap, with the radii of the evaluation. -/
def Over (o : Olp K) (r : Rec K) : Prop := ∃ a b, o.radii[r.i]? = some a ∧ o.radii[r.j]? = some b ∧ r.d < a + b

/-- The query is free of accesses outside arrays. -/
def Safe {α : Type} (q : Option α) : Prop := q.isSome

/-! ### Lemmas -/

/-- What every state satisfies. -/
structure Inv (n : Nat) (o : Olp K) : Prop where
  radii : o.radii.length = n
  recs : ∀ r ∈ o.recs, r.i < n ∧ r.j < n
  nbrs : ∀ k l, find o.nbrs k = some l → ∀ idx ∈ l, ∃ r, o.recs[idx]? = some r ∧ r.i = k

theorem addNbr_ok (recs : List (Rec K)) (m : List (Nat × List Nat)) (idx : Nat)
    (h : ∀ k l, find m k = some l → ∀ x ∈ l, ∃ r, recs[x]? = some r ∧ r.i = k) :
    ∀ k l, find (addNbr recs m idx) k = some l → ∀ x ∈ l, ∃ r, recs[x]? = some r ∧ r.i = k := by
  intro k l hk x hx
  unfold addNbr at hk
  cases hr : recs[idx]? with
  | none => rw [hr] at hk; exact h k l hk x hx
  | some r =>
    rw [hr] at hk
    dsimp only at hk
    by_cases hki : r.i = k
    · subst hki
      rw [find_put, if_pos rfl] at hk
      cases hk
      rcases List.mem_append.1 hx with h1 | h1
      · cases hf : find m r.i with
        | none => rw [hf] at h1; cases h1
        | some l0 => rw [hf] at h1; exact h _ _ hf x h1
      · rw [List.mem_singleton.1 h1]
        exact ⟨r, hr, rfl⟩
    · rw [find_put, if_neg (fun e => hki e.symm)] at hk
      exact h k l hk x hx

theorem fill_nbrs_ok (recs : List (Rec K)) (is : List Nat) (m : List (Nat × List Nat))
    (h : ∀ k l, find m k = some l → ∀ x ∈ l, ∃ r, recs[x]? = some r ∧ r.i = k) :
    ∀ k l, find (is.foldl (addNbr recs) m) k = some l → ∀ x ∈ l, ∃ r, recs[x]? = some r ∧ r.i = k := by
  induction is generalizing m with
  | nil => exact h
  | cons i is ih => exact ih _ (addNbr_ok recs m i h)

theorem inv_fill {n : Nat} {o : Olp K} (h : Inv n o) : Inv n (fill o) := by
  unfold fill
  split
  · exact h
  · exact ⟨h.radii, h.recs, fill_nbrs_ok _ _ _ h.nbrs⟩

theorem fill_recs (o : Olp K) : (fill o).recs = o.recs := by unfold fill; split <;> rfl
theorem fill_radii (o : Olp K) : (fill o).radii = o.radii := by unfold fill; split <;> rfl
theorem fill_cached (o : Olp K) : (fill o).cached = true := by
  unfold fill
  split
  · assumption
  · rfl

theorem fill_fill (o : Olp K) : fill (fill o) = fill o := by
  rw [fill.eq_def (fill o), if_pos (fill_cached o)]

theorem inv_of_reach {n : Nat} {o : Olp K} (h : Reach n o) : Inv n o := by
  induction h with
  | reset radii h =>
    refine ⟨h, ?_, ?_⟩
    · intro r hr; cases hr
    · intro k l hk; cases hk
  | bonds o p _ hp ih =>
    refine ⟨ih.radii, ?_, ?_⟩
    · intro r hr
      rcases List.mem_append.1 hr with h1 | h1
      · exact ih.recs r h1
      · exact hp r h1
    · intro k l hk x hx
      obtain ⟨r, hr, hi⟩ := ih.nbrs k l hk x hx
      refine ⟨r, ?_, hi⟩
      show (o.recs ++ p)[x]? = _
      rw [List.getElem?_append_left]
      · exact hr
      · exact (List.getElem?_eq_some_iff.1 hr).1
  | query o _ ih => exact inv_fill ih

theorem rd_some {α : Type} {v : List α} {i : Nat} (h : i < v.length) : rd v i = some v[i] := List.getElem?_eq_getElem h

theorem rd_safe {α : Type} (v : List α) (i : Nat) : (rd v i).isSome ↔ i < v.length := by
  unfold rd
  simp

theorem sub0 (o : Olp K) (r : Rec K) : suboverlap o r 0 0 =
    (rd o.radii r.i).bind fun a => (rd o.radii r.j).bind fun b => some (if r.d < a + b then a + b - r.d else 0) := by
  unfold suboverlap
  simp only [if_true]
  rfl

theorem loop_spec {n : Nat} (o : Olp K) (hn : o.radii.length = n) (rs : List (Rec K))
    (h : ∀ r ∈ rs, r.i < n ∧ r.j < n) :
    ∃ ls, loop o rs = some ls ∧ (∀ r ∈ rs, Over o r → ∃ olp, (r, olp) ∈ ls) ∧ ∀ p ∈ ls, p.1 ∈ rs ∧ Over o p.1 := by
  induction rs with
  | nil => exact ⟨[], rfl, by simp, by simp⟩
  | cons r rs ih =>
    obtain ⟨ls, h1, h2, h3⟩ := ih fun r hr => h r (by simp [hr])
    obtain ⟨hi, hj⟩ := h r (by simp)
    rw [← hn] at hi hj
    have hs : suboverlap o r 0 0 =
        some (if r.d < o.radii[r.i] + o.radii[r.j] then o.radii[r.i] + o.radii[r.j] - r.d else 0) := by
      rw [sub0, rd_some hi, rd_some hj]; rfl
    have hov : Over o r ↔ r.d < o.radii[r.i] + o.radii[r.j] := by
      constructor
      · rintro ⟨a, b, ha, hb, hd⟩
        rw [List.getElem?_eq_getElem hi] at ha
        rw [List.getElem?_eq_getElem hj] at hb
        rw [Option.some.inj ha, Option.some.inj hb]
        exact hd
      · intro hd
        exact ⟨_, _, List.getElem?_eq_getElem hi, List.getElem?_eq_getElem hj, hd⟩
    have hl : loop o (r :: rs) =
        some (if (if r.d < o.radii[r.i] + o.radii[r.j] then o.radii[r.i] + o.radii[r.j] - r.d else 0) ≤ 0 then ls
          else (r, if r.d < o.radii[r.i] + o.radii[r.j] then o.radii[r.i] + o.radii[r.j] - r.d else 0) :: ls) := by
      rw [loop, hs, h1]
      rfl
    rw [hl]
    by_cases hd : r.d < o.radii[r.i] + o.radii[r.j]
    · rw [if_pos hd, if_neg (by linarith)]
      refine ⟨_, rfl, ?_, ?_⟩
      · intro r' hr' ho
        rcases List.mem_cons.1 hr' with rfl | hr'
        · exact ⟨_, List.mem_cons_self ..⟩
        · obtain ⟨x, hx⟩ := h2 r' hr' ho
          exact ⟨x, List.mem_cons_of_mem _ hx⟩
      · intro p hp
        rcases List.mem_cons.1 hp with rfl | hp
        · exact ⟨List.mem_cons_self .., hov.2 hd⟩
        · exact ⟨List.mem_cons_of_mem _ (h3 p hp).1, (h3 p hp).2⟩
    · rw [if_neg hd, if_pos le_rfl]
      refine ⟨_, rfl, ?_, ?_⟩
      · intro r' hr' ho
        rcases List.mem_cons.1 hr' with rfl | hr'
        · exact absurd (hov.1 ho) hd
        · exact h2 r' hr' ho
      · intro p hp
        exact ⟨List.mem_cons_of_mem _ (h3 p hp).1, (h3 p hp).2⟩

theorem all_over {o : Olp K} {rs : List (Rec K)} {ls : List (Rec K × K)}
    (h2 : ∀ r ∈ rs, Over o r → ∃ olp, (r, olp) ∈ ls) (h3 : ∀ p ∈ ls, p.1 ∈ rs ∧ Over o p.1) (P : Rec K → Prop) :
    (∀ p ∈ ls, P p.1) ↔ ∀ r ∈ rs, Over o r → P r :=
  ⟨fun h r hr ho => by obtain ⟨x, hx⟩ := h2 r hr ho; exact h _ hx, fun h p hp => h _ (h3 p hp).1 (h3 p hp).2⟩

theorem types_safe (L : List (Site K)) (is : List Nat) : (indicesToTypes L is).isSome ↔ ∀ i ∈ is, i < L.length := by
  induction is with
  | nil => simp [indicesToTypes]
  | cons i is ih =>
    have : indicesToTypes L (i :: is) =
        (rd L i).bind fun s => (indicesToTypes L is).bind fun rest => some (s.typ :: rest) := rfl
    rw [this]
    by_cases hi : i < L.length
    · rw [rd_some hi, Option.bind_some]
      cases hr : indicesToTypes L is with
      | none =>
        rw [hr] at ih
        simp only [Option.bind_none, Option.isSome_none, Bool.false_eq_true, false_iff]
        intro hall
        have := ih.2 fun i hi => hall i (by simp [hi])
        cases this
      | some rest =>
        rw [hr] at ih
        simp only [Option.bind_some, Option.isSome_some, true_iff]
        intro j hj
        rcases List.mem_cons.1 hj with rfl | hj
        · exact hi
        · exact ih.1 rfl j hj
    · have : rd L i = none := by unfold rd; simp; omega
      rw [this, Option.bind_none]
      simp only [Option.isSome_none, Bool.false_eq_true, false_iff]
      intro hall
      exact hi (hall i (by simp))

theorem upd_len {α : Type} {v w : List α} {i : Nat} {f : α → α} (h : upd v i f = some w) :
    i < v.length ∧ w.length = v.length := by
  unfold upd at h
  split at h
  · cases h
    exact ⟨by assumption, by simp⟩
  · cases h

theorem upd_some {α : Type} {v : List α} {i : Nat} (f : α → α) (h : i < v.length) : upd v i f = some (v.modify i f) :=
  if_pos h

theorem accum_safe (L : List (Site K)) (at' src : Rec K → Nat) (amount : K → Site K → K) (ls : List (Rec K × K))
    (rv : List K) (hrv : rv.length = L.length) :
    (accum L at' src amount ls rv).isSome ↔ ∀ p ∈ ls, at' p.1 < L.length ∧ src p.1 < L.length := by
  induction ls generalizing rv with
  | nil => simp [accum]
  | cons p ls ih =>
    obtain ⟨r, olp⟩ := p
    have hdef : accum L at' src amount ((r, olp) :: ls) rv =
      (rd L (src r)).bind fun s => (upd rv (at' r) (· + amount olp s)).bind fun rv1 =>
        accum L at' src amount ls rv1 := rfl
    rw [hdef]
    by_cases h1 : src r < L.length
    · rw [rd_some h1, Option.bind_some]
      by_cases h2 : at' r < L.length
      · rw [upd_some _ (hrv ▸ h2), Option.bind_some, ih _ (by simpa using hrv)]
        constructor
        · intro h p hp
          rcases List.mem_cons.1 hp with rfl | hp
          · exact ⟨h2, h1⟩
          · exact h p hp
        · intro h p hp; exact h p (by simp [hp])
      · have : ∀ f, upd rv (at' r) f = none := fun f => if_neg (by rw [hrv]; exact h2)
        rw [this, Option.bind_none]
        simp only [Option.isSome_none, Bool.false_eq_true, false_iff]
        intro hall
        exact h2 (hall (r, olp) (by simp)).1
    · have : rd L (src r) = none := by unfold rd; simp; omega
      rw [this, Option.bind_none]
      simp only [Option.isSome_none, Bool.false_eq_true, false_iff]
      intro hall
      exact h1 (hall (r, olp) (by simp)).2

theorem grad_safe (n : Nat) (ls : List (Rec K × K)) (rv : List (K × K × K)) (hrv : rv.length = n) :
    (gradLoop ls rv).isSome ↔ ∀ p ∈ ls, p.1.j < n := by
  induction ls generalizing rv with
  | nil => simp [gradLoop]
  | cons p ls ih =>
    obtain ⟨r, olp⟩ := p
    have hdef : gradLoop ((r, olp) :: ls) rv =
      (upd rv r.j fun v => (v.1 + -2 * olp / r.d * r.dir.1, v.2.1 + -2 * olp / r.d * r.dir.2.1,
        v.2.2 + -2 * olp / r.d * r.dir.2.2)).bind fun rv1 => gradLoop ls rv1 := rfl
    rw [hdef]
    by_cases h2 : r.j < n
    · rw [upd_some _ (hrv ▸ h2), Option.bind_some, ih _ (by simpa using hrv)]
      constructor
      · intro h p hp
        rcases List.mem_cons.1 hp with rfl | hp
        · exact h2
        · exact h p hp
      · intro h p hp; exact h p (by simp [hp])
    · have : ∀ f, upd rv r.j f = none := fun f => if_neg (by rw [hrv]; exact h2)
      rw [this, Option.bind_none]
      simp only [Option.isSome_none, Bool.false_eq_true, false_iff]
      intro hall
      exact h2 (hall (r, olp) (by simp))

theorem nbh_safe (ls : List (Rec K × K)) (a : List (Option Unit)) :
    (nbhAccesses ls a).isSome ↔ ∀ p ∈ ls, p.1.i < a.length ∧ p.1.j < a.length := by
  induction ls with
  | nil => simp [nbhAccesses]
  | cons p ls ih =>
    obtain ⟨r, olp⟩ := p
    have hdef : nbhAccesses ((r, olp) :: ls) a =
      (rd a r.i).bind fun _ => (rd a r.j).bind fun _ => nbhAccesses ls a := rfl
    rw [hdef]
    by_cases h1 : r.i < a.length
    · rw [rd_some h1, Option.bind_some]
      by_cases h2 : r.j < a.length
      · rw [rd_some h2, Option.bind_some, ih]
        constructor
        · intro h p hp
          rcases List.mem_cons.1 hp with rfl | hp
          · exact ⟨h1, h2⟩
          · exact h p hp
        · intro h p hp; exact h p (by simp [hp])
      · have : rd a r.j = none := by unfold rd; simp; omega
        rw [this, Option.bind_none]
        simp only [Option.isSome_none, Bool.false_eq_true, false_iff]
        intro hall
        exact h2 (hall (r, olp) (by simp)).2
    · have : rd a r.i = none := by unfold rd; simp; omega
      rw [this, Option.bind_none]
      simp only [Option.isSome_none, Bool.false_eq_true, false_iff]
      intro hall
      exact h1 (hall (r, olp) (by simp)).1

theorem recsAt_spec (o : Olp K) (is : List Nat) (h : ∀ x ∈ is, ∃ r, o.recs[x]? = some r) :
    ∃ rs, recsAt o is = some rs ∧ ∀ r, r ∈ rs ↔ ∃ x ∈ is, o.recs[x]? = some r := by
  induction is with
  | nil => exact ⟨[], rfl, by simp⟩
  | cons i is ih =>
    obtain ⟨rs, h1, h2⟩ := ih fun x hx => h x (by simp [hx])
    obtain ⟨r, hr⟩ := h i (by simp)
    refine ⟨r :: rs, ?_, ?_⟩
    · have : recsAt o (i :: is) = (rd o.recs i).bind fun r => (recsAt o is).bind fun rest => some (r :: rest) := rfl
      rw [this, h1, show rd o.recs i = some r from hr]; rfl
    · intro r'
      rw [List.mem_cons, h2]
      constructor
      · rintro (rfl | ⟨x, hx, hx'⟩)
        · exact ⟨i, by simp, hr⟩
        · exact ⟨x, by simp [hx], hx'⟩
      · rintro ⟨x, hx, hx'⟩
        rcases List.mem_cons.1 hx with rfl | hx
        · left; rw [hr] at hx'; exact (Option.some.inj hx').symm
        · exact Or.inr ⟨x, hx, hx'⟩

theorem nbrIds_ok {n : Nat} {o : Olp K} (h : Inv n o) (k : Nat) :
    ∀ x ∈ neighborIds o k, ∃ r, o.recs[x]? = some r ∧ r.i = k := by
  intro x hx
  have hf := (inv_fill h).nbrs
  rw [fill_recs] at hf
  unfold neighborIds at hx
  cases hk : find (fill o).nbrs k with
  | none => rw [hk] at hx; cases hx
  | some l => rw [hk] at hx; exact hf k l hk x hx

/-! ### When queries are safe -/

/-- Overlaps, distances, directions and site indices do not depend on the present structure and are always
safe. -/
theorem snapshot_queries {n : Nat} {o : Olp K} (h : Reach n o) (i : Nat) :
    Safe (overlaps o) ∧ Safe (distances o) ∧ Safe (directions o) ∧ Safe (sites0 o) ∧ Safe (sites1 o) ∧
      Safe (neighborSites o i) := by
  have hI := inv_of_reach h
  obtain ⟨ls, h1, -, -⟩ := loop_spec o hI.radii o.recs hI.recs
  refine ⟨?_, ?_, ?_, ?_, ?_, ?_⟩
  · unfold Safe overlaps; rw [h1]; rfl
  · unfold Safe distances; rw [h1]; rfl
  · unfold Safe directions; rw [h1]; rfl
  · unfold Safe sites0; rw [h1]; rfl
  · unfold Safe sites1; rw [h1]; rfl
  · obtain ⟨rs, hr, hm⟩ := recsAt_spec o (neighborIds o i) fun x hx => by
      obtain ⟨r, hr, _⟩ := nbrIds_ok hI i x hx; exact ⟨r, hr⟩
    obtain ⟨ls', h1', -, -⟩ := loop_spec o hI.radii rs fun r hr' => by
      obtain ⟨x, _, hx⟩ := (hm r).1 hr'
      exact hI.recs r (List.mem_of_getElem? hx)
    have : neighborSites o i = (recsAt o (neighborIds o i)).bind fun rs => (loop o rs).bind fun ls =>
        some (ls.map (·.1.j)) := rfl
    unfold Safe
    rw [this, hr, Option.bind_some, h1']
    rfl

/-- The other queries are safe exactly when the sites of the overlapping bonds of the last evaluation still
exist; `L` is the present structure. -/
theorem safe_iff {n : Nat} {o : Olp K} (h : Reach n o) (L : List (Site K)) :
    (Safe (types0 o L) ↔ ∀ r ∈ o.recs, Over o r → r.i < L.length) ∧
    (Safe (types1 o L) ↔ ∀ r ∈ o.recs, Over o r → r.j < L.length) ∧
    (Safe (gradients o L) ↔ ∀ r ∈ o.recs, Over o r → r.j < L.length) ∧
    (Safe (siteSquareOverlaps o L) ↔ ∀ r ∈ o.recs, Over o r → r.i < L.length ∧ r.j < L.length) ∧
    (Safe (totalSquareOverlap o L) ↔ ∀ r ∈ o.recs, Over o r → r.i < L.length ∧ r.j < L.length) ∧
    (Safe (meanSquareOverlap o L) ↔ 0 < (L.map fun s => s.occ * s.mult).sum → ∀ r ∈ o.recs, Over o r → r.i < L.length ∧ r.j < L.length) ∧
    (Safe (coordinations o L) ↔ ∀ r ∈ o.recs, Over o r → r.i < L.length ∧ r.j < L.length) ∧
    (Safe (neighborhoods o L) ↔ ∀ r ∈ o.recs, Over o r → r.i < L.length ∧ r.j < L.length) := by
  have hI := inv_of_reach h
  obtain ⟨ls, h1, h2, h3⟩ := loop_spec o hI.radii o.recs hI.recs
  have hss : Safe (siteSquareOverlaps o L) ↔ ∀ r ∈ o.recs, Over o r → r.i < L.length ∧ r.j < L.length := by
    have hdef : siteSquareOverlaps o L = (loop o o.recs).bind fun rs =>
      (accum L (·.i) (·.j) (fun olp s => olp * olp * s.occ) rs (List.replicate L.length 0)).bind fun rv =>
        some (rv.map (· / 2)) := rfl
    unfold Safe
    rw [hdef, h1, Option.bind_some, ← all_over h2 h3 fun r => r.i < L.length ∧ r.j < L.length,
      ← accum_safe L (·.i) (·.j) (fun olp s => olp * olp * s.occ) ls (List.replicate L.length 0) (by simp)]
    cases accum L (·.i) (·.j) (fun olp s => olp * olp * s.occ) ls (List.replicate L.length 0) <;> simp
  have hts : Safe (totalSquareOverlap o L) ↔ Safe (siteSquareOverlaps o L) := by
    have hdef : totalSquareOverlap o L = (siteSquareOverlaps o L).bind fun sq =>
      some (List.zipWith (fun x (s : Site K) => x * s.mult * s.occ) sq L).sum := rfl
    unfold Safe
    rw [hdef]
    cases siteSquareOverlaps o L <;> simp
  refine ⟨?_, ?_, ?_, hss, hts.trans hss, ?_, ?_, ?_⟩
  · have hdef : types0 o L = ((loop o o.recs).map (·.map (·.1.i))).bind (indicesToTypes L) := rfl
    unfold Safe
    rw [hdef, h1, Option.map_some, Option.bind_some, types_safe, ← all_over h2 h3 fun r => r.i < L.length]
    simp only [List.mem_map, forall_exists_index, and_imp, forall_apply_eq_imp_iff₂]
  · have hdef : types1 o L = ((loop o o.recs).map (·.map (·.1.j))).bind (indicesToTypes L) := rfl
    unfold Safe
    rw [hdef, h1, Option.map_some, Option.bind_some, types_safe, ← all_over h2 h3 fun r => r.j < L.length]
    simp only [List.mem_map, forall_exists_index, and_imp, forall_apply_eq_imp_iff₂]
  · have hdef : gradients o L = (loop o o.recs).bind fun rs => gradLoop rs (List.replicate L.length (0, 0, 0)) := rfl
    unfold Safe
    rw [hdef, h1, Option.bind_some, grad_safe L.length _ _ (by simp), all_over h2 h3 fun r => r.j < L.length]
  · unfold meanSquareOverlap
    change _ ↔ (0 < totalOccupancy L → _)
    by_cases ht : totalOccupancy L > 0
    · rw [if_pos ht]
      have : Safe ((totalSquareOverlap o L).map (· / totalOccupancy L)) ↔ Safe (totalSquareOverlap o L) := by
        unfold Safe
        rw [Option.isSome_map]
      rw [this, hts, hss]
      exact ⟨fun h _ => h, fun h => h ht⟩
    · rw [if_neg ht]
      exact ⟨fun _ h => absurd h ht, fun _ => rfl⟩
  · have hdef : coordinations o L = (loop o o.recs).bind fun rs =>
      accum L (·.i) (·.j) (fun _ s => s.occ) rs (List.replicate L.length 0) := rfl
    unfold Safe
    rw [hdef, h1, Option.bind_some, accum_safe _ _ _ _ _ _ (by simp),
      all_over h2 h3 fun r => r.i < L.length ∧ r.j < L.length]
  · have hdef : neighborhoods o L = (loop o o.recs).bind fun rs => nbhAccesses rs (List.replicate L.length none) := rfl
    unfold Safe
    rw [hdef, h1, Option.bind_some, nbh_safe, List.length_replicate,
      all_over h2 h3 fun r => r.i < L.length ∧ r.j < L.length]

theorem byType_safe (L : List (Site K)) (i : Nat) (ls : List (Rec K × K)) (rv : List (String × K))
    (hi : ∀ p ∈ ls, p.1.i = i) : (byTypeLoop L i ls rv).isSome ↔ ∀ p ∈ ls, p.1.j < L.length := by
  induction ls generalizing rv with
  | nil => simp [byTypeLoop]
  | cons p ls ih =>
    obtain ⟨r, olp⟩ := p
    have hr : r.i = i := hi (r, olp) (by simp)
    have hdef : byTypeLoop L i ((r, olp) :: ls) rv =
      ((rd L r.j).bind fun s => some (put rv s.typ ((find rv s.typ).getD 0 + s.occ))).bind fun rv1 =>
        byTypeLoop L i ls rv1 := by
      rw [byTypeLoop, if_pos hr]
      cases rd L r.j <;> rfl
    rw [hdef]
    by_cases h2 : r.j < L.length
    · rw [rd_some h2, Option.bind_some, Option.bind_some, ih _ fun p hp => hi p (by simp [hp])]
      constructor
      · intro h p hp
        rcases List.mem_cons.1 hp with rfl | hp
        · exact h2
        · exact h p hp
      · intro h p hp; exact h p (by simp [hp])
    · have : rd L r.j = none := by unfold rd; simp; omega
      rw [this, Option.bind_none, Option.bind_none]
      simp only [Option.isSome_none, Bool.false_eq_true, false_iff]
      intro hall
      exact h2 (hall (r, olp) (by simp))

/-- `coordinationByTypes(i)` is safe when the partners of the overlapping bonds of site `i` still exist, and
exactly then if all bonds of the site are in the list of neighbours. -/
theorem byTypes_safe_iff {n : Nat} {o : Olp K} (h : Reach n o) (L : List (Site K)) (i : Nat) :
    Safe (coordinationByTypes o L i) ↔
      ∀ x ∈ neighborIds o i, ∀ r, o.recs[x]? = some r → Over o r → r.j < L.length := by
  have hI := inv_of_reach h
  obtain ⟨rs, hr, hm⟩ := recsAt_spec o (neighborIds o i) fun x hx => by
    obtain ⟨r, hr, _⟩ := nbrIds_ok hI i x hx; exact ⟨r, hr⟩
  have hrs : ∀ r ∈ rs, r.i < n ∧ r.j < n := fun r hr' => by
    obtain ⟨x, _, hx⟩ := (hm r).1 hr'
    exact hI.recs r (List.mem_of_getElem? hx)
  obtain ⟨ls, h1, h2, h3⟩ := loop_spec o hI.radii rs hrs
  have hdef : coordinationByTypes o L i = (recsAt o (neighborIds o i)).bind fun rs => (loop o rs).bind fun ls =>
    byTypeLoop L i ls [] := rfl
  unfold Safe
  rw [hdef, hr, Option.bind_some, h1, Option.bind_some, byType_safe, all_over h2 h3 fun r => r.j < L.length]
  · constructor
    · intro hh x hx r hxr ho; exact hh r ((hm r).2 ⟨x, hx, hxr⟩) ho
    · intro hh r hr' ho
      obtain ⟨x, hx, hxr⟩ := (hm r).1 hr'
      exact hh x hx r hxr ho
  · intro p hp
    obtain ⟨x, hx, hxr⟩ := (hm p.1).1 (h3 p hp).1
    obtain ⟨r', hr', hi'⟩ := nbrIds_ok hI i x hx
    rw [hxr] at hr'
    rw [Option.some.inj hr']; exact hi'

theorem flip_index (fi fj i n : Nat) (hi : i < n) (hfi : fi < n) (hfj : fj < n) :
    (if fi = fj then i else if i = fi then fj else if i = fj then fi else i) < n := by
  split
  · exact hi
  · split
    · exact hfj
    · split
      · exact hfi
      · exact hi

theorem sub_safe {n : Nat} {o : Olp K} (hn : o.radii.length = n) (r : Rec K) (h : r.i < n ∧ r.j < n) (fi fj : Nat)
    (hfi : fi < n) (hfj : fj < n) : ∃ x, suboverlap o r fi fj = some x := by
  have h1 := flip_index fi fj r.i n h.1 hfi hfj
  have h2 := flip_index fi fj r.j n h.2 hfi hfj
  rw [← hn] at h1 h2
  unfold suboverlap
  rw [rd_some h1, rd_some h2]
  exact ⟨_, rfl⟩

theorem sub00 {n : Nat} {o : Olp K} (hn : o.radii.length = n) (r : Rec K) (h : r.i < n ∧ r.j < n) :
    ∃ x, suboverlap o r 0 0 = some x := by
  rw [sub0, rd_some (hn ▸ h.1), rd_some (hn ▸ h.2)]
  exact ⟨_, rfl⟩

theorem flipLoop_safe {n : Nat} {o : Olp K} (hn : o.radii.length = n) (L : List (Site K)) (i j : Nat) (hi : i < n)
    (hj : j < n) (rs : List (Rec K)) (h : ∀ r ∈ rs, r.i < n ∧ r.j < n) (rv : K) :
    (flipLoop o L i j rs rv).isSome ↔ ∀ r ∈ rs, r.i < L.length ∧ r.j < L.length := by
  induction rs generalizing rv with
  | nil => simp [flipLoop]
  | cons r rs ih =>
    obtain ⟨x, hx⟩ := sub00 hn r (h r (by simp))
    obtain ⟨y, hy⟩ := sub_safe hn r (h r (by simp)) i j hi hj
    have hdef : flipLoop o L i j (r :: rs) rv =
      (rd L r.i).bind fun a => (rd L r.j).bind fun b =>
        (suboverlap o r 0 0).bind fun olp0 => (suboverlap o r i j).bind fun olp1 =>
          flipLoop o L i j rs (rv - (if r.i = r.j then 1 else 2) * a.occ * b.occ * a.mult / 2 * olp0 * olp0 +
            (if r.i = r.j then 1 else 2) * a.occ * b.occ * a.mult / 2 * olp1 * olp1) := rfl
    rw [hdef]
    by_cases h1 : r.i < L.length
    · rw [rd_some h1, Option.bind_some]
      by_cases h2 : r.j < L.length
      · rw [rd_some h2, Option.bind_some, hx, hy, Option.bind_some, Option.bind_some,
          ih fun r hr => h r (by simp [hr])]
        constructor
        · intro hh p hp
          rcases List.mem_cons.1 hp with rfl | hp
          · exact ⟨h1, h2⟩
          · exact hh p hp
        · intro hh p hp; exact hh p (by simp [hp])
      · have : rd L r.j = none := by unfold rd; simp; omega
        rw [this, Option.bind_none]
        simp only [Option.isSome_none, Bool.false_eq_true, false_iff]
        intro hall
        exact h2 (hall r (by simp)).2
    · have : rd L r.i = none := by unfold rd; simp; omega
      rw [this, Option.bind_none]
      simp only [Option.isSome_none, Bool.false_eq_true, false_iff]
      intro hall
      exact h1 (hall r (by simp)).1

/-- `flipDiffTotal` is safe when the structure still has the size of the evaluation (or is smaller by sites
without bonds of the two); `order` is any enumeration of the set. -/
theorem flip_safe {n : Nat} {o : Olp K} (h : Reach n o) (L : List (Site K)) (hL : L.length = n)
    (order : List Nat → List Nat) (ho : ∀ l x, x ∈ order l ↔ x ∈ l) (i j : Nat) : Safe (flipDiffTotal o L order i j) := by
  have hI := inv_of_reach h
  unfold flipDiffTotal Safe
  by_cases hb : i ≥ L.length ∨ j ≥ L.length
  · rw [if_pos hb]; rfl
  · rw [if_neg hb]
    have hi : i < n := by omega
    have hj : j < n := by omega
    by_cases hij : i = j
    · rw [if_pos hij]; rfl
    · rw [if_neg hij, rd_some (hI.radii ▸ hi), rd_some (hI.radii ▸ hj)]
      obtain ⟨rs, hr, hm⟩ := recsAt_spec o (order ((neighborIds o i) ++ (neighborIds o j)).dedup) fun x hx => by
        rw [ho, List.mem_dedup, List.mem_append] at hx
        rcases hx with hx | hx
        · obtain ⟨r, hr, _⟩ := nbrIds_ok hI i x hx; exact ⟨r, hr⟩
        · obtain ⟨r, hr, _⟩ := nbrIds_ok hI j x hx; exact ⟨r, hr⟩
      have hrs : ∀ r ∈ rs, r.i < n ∧ r.j < n := fun r hr' => by
        obtain ⟨x, _, hx⟩ := (hm r).1 hr'
        exact hI.recs r (List.mem_of_getElem? hx)
      have hs : (flipLoop o L i j rs 0).isSome := (flipLoop_safe hI.radii L i j hi hj rs hrs 0).2 (by rw [hL]; exact hrs)
      obtain ⟨x, hx⟩ := Option.isSome_iff_exists.1 hs
      show (if decide (_ = _) = true then some (Flip.num (0 : K)) else
        (recsAt o (order ((neighborIds o i) ++ (neighborIds o j)).dedup)).bind fun rs =>
          (flipLoop o L i j rs 0).bind fun x => some (Flip.num x)).isSome
      rw [hr, Option.bind_some, hx]
      split <;> rfl

/-- Directly after an evaluation every query is safe. -/
theorem after_eval_safe {n : Nat} {o : Olp K} (h : Reach n o) (L : List (Site K)) (hL : L.length = n) (i : Nat) :
    Safe (types0 o L) ∧ Safe (types1 o L) ∧ Safe (gradients o L) ∧ Safe (siteSquareOverlaps o L) ∧
      Safe (totalSquareOverlap o L) ∧ Safe (meanSquareOverlap o L) ∧ Safe (coordinations o L) ∧
      Safe (neighborhoods o L) ∧ Safe (coordinationByTypes o L i) := by
  have hI := (inv_of_reach h).recs
  obtain ⟨h1, h2, h3, h4, h5, h6, h7, h8⟩ := safe_iff h L
  subst hL
  refine ⟨h1.2 fun r hr _ => (hI r hr).1, h2.2 fun r hr _ => (hI r hr).2, h3.2 fun r hr _ => (hI r hr).2,
    h4.2 fun r hr _ => hI r hr, h5.2 fun r hr _ => hI r hr, h6.2 fun _ r hr _ => hI r hr, h7.2 fun r hr _ => hI r hr,
    h8.2 fun r hr _ => hI r hr, (byTypes_safe_iff h L i).2 fun x _ r hr _ => (hI r (List.mem_of_getElem? hr)).2⟩

/-- Atoms added to the structure since the evaluation do no harm to these queries. -/
theorem grown_safe {n : Nat} {o : Olp K} (h : Reach n o) (L : List (Site K)) (hL : n ≤ L.length) (i : Nat) :
    Safe (types0 o L) ∧ Safe (types1 o L) ∧ Safe (gradients o L) ∧ Safe (siteSquareOverlaps o L) ∧
      Safe (totalSquareOverlap o L) ∧ Safe (meanSquareOverlap o L) ∧ Safe (coordinations o L) ∧
      Safe (neighborhoods o L) ∧ Safe (coordinationByTypes o L i) := by
  have hI : ∀ r ∈ o.recs, r.i < L.length ∧ r.j < L.length := fun r hr => by
    obtain ⟨a, b⟩ := (inv_of_reach h).recs r hr
    omega
  obtain ⟨h1, h2, h3, h4, h5, h6, h7, h8⟩ := safe_iff h L
  refine ⟨h1.2 fun r hr _ => (hI r hr).1, h2.2 fun r hr _ => (hI r hr).2, h3.2 fun r hr _ => (hI r hr).2,
    h4.2 fun r hr _ => hI r hr, h5.2 fun r hr _ => hI r hr, h6.2 fun _ r hr _ => hI r hr, h7.2 fun r hr _ => hI r hr,
    h8.2 fun r hr _ => hI r hr, (byTypes_safe_iff h L i).2 fun x _ r hr _ => (hI r (List.mem_of_getElem? hr)).2⟩

/-- ... but `flipDiffTotal` with the index of an added atom passes the check and reads a radius that does not
exist. -/
theorem flip_grown_bug {n : Nat} {o : Olp K} (h : Reach n o) (L : List (Site K)) (order : List Nat → List Nat)
    (i j : Nat) (hi : i < L.length) (hj : j < L.length) (hij : i ≠ j) (hn : n ≤ i ∨ n ≤ j) :
    ¬ Safe (flipDiffTotal o L order i j) := by
  have hI := inv_of_reach h
  unfold flipDiffTotal Safe
  rw [if_neg (by omega), if_neg hij]
  rcases hn with hn | hn
  · have : rd o.radii i = none := by unfold rd; simp [hI.radii, hn]
    rw [this]
    exact Bool.false_ne_true
  · have : rd o.radii j = none := by unfold rd; simp [hI.radii, hn]
    rw [this]
    cases rd o.radii i <;> exact Bool.false_ne_true

/-! ### Queries and each other -/

/-- A query does not change the answer of another one. -/
theorem queries_independent (o : Olp K) (L : List (Site K)) (order : List Nat → List Nat) (i j : Nat) :
    overlaps (fill o) = overlaps o ∧ siteSquareOverlaps (fill o) L = siteSquareOverlaps o L ∧
    coordinations (fill o) L = coordinations o L ∧ gradients (fill o) L = gradients o L ∧
    neighborSites (fill o) i = neighborSites o i ∧ coordinationByTypes (fill o) L i = coordinationByTypes o L i ∧
    flipDiffTotal (fill o) L order i j = flipDiffTotal o L order i j := by
  have hsub : ∀ r a b, suboverlap (fill o) r a b = suboverlap o r a b := fun r a b => by
    unfold suboverlap; rw [fill_radii]
  have hloop : ∀ rs, loop (fill o) rs = loop o rs := fun rs => by
    induction rs with
    | nil => rfl
    | cons r rs ih => rw [loop, loop, hsub, ih]
  have hids : ∀ k, neighborIds (fill o) k = neighborIds o k := fun k => by
    unfold neighborIds; rw [fill_fill]
  have hat : ∀ is, recsAt (fill o) is = recsAt o is := fun is => by
    induction is with
    | nil => rfl
    | cons i is ih => rw [recsAt, recsAt, ih, fill_recs]
  have hflip : ∀ rs rv, flipLoop (fill o) L i j rs rv = flipLoop o L i j rs rv := fun rs => by
    induction rs with
    | nil => intro rv; rfl
    | cons r rs ih => intro rv; simp only [flipLoop, hsub, ih]
  refine ⟨?_, ?_, ?_, ?_, ?_, ?_, ?_⟩
  · unfold overlaps; rw [fill_recs, hloop]
  · unfold siteSquareOverlaps; rw [fill_recs, hloop]
  · unfold coordinations; rw [fill_recs, hloop]
  · unfold gradients; rw [fill_recs, hloop]
  · unfold neighborSites; rw [hids, hat]; simp only [hloop]
  · unfold coordinationByTypes; rw [hids, hat]; simp only [hloop]
  · unfold flipDiffTotal
    simp only [hids, hat, hflip, fill_radii]

theorem fold_nbrs (recs : List (Rec K)) (k m : Nat) (hm : m ≤ recs.length) :
    (find ((List.range m).foldl (addNbr recs) []) k).getD [] =
      (List.range m).filter fun x => decide (recs[x]?.map (·.i) = some k) := by
  induction m with
  | zero => rfl
  | succ m ih =>
    rw [List.range_succ, List.foldl_append, List.filter_append, ← ih (by omega)]
    have hr : recs[m]? = some recs[m] := List.getElem?_eq_getElem (by omega)
    simp only [List.foldl_cons, List.foldl_nil]
    generalize (List.range m).foldl (addNbr recs) [] = M
    rw [addNbr, hr]
    dsimp only
    rw [find_put]
    by_cases hk : k = recs[m].i
    · subst hk
      simp [hr]
    · rw [if_neg hk]
      have : ¬ recs[m].i = k := fun e => hk e.symm
      simp [hr, this]

/-- The neighbours of a site are all bonds of the last evaluation that start there, if no query was made
before the bonds were complete. -/
theorem neighbors_complete (o : Olp K) (hc : o.cached = false) (hn : o.nbrs = []) (k x : Nat) :
    x ∈ neighborIds o k ↔ ∃ r, o.recs[x]? = some r ∧ r.i = k := by
  unfold neighborIds fill
  rw [if_neg (by simp [hc]), hn, fold_nbrs o.recs k _ le_rfl]
  simp only [List.mem_filter, List.mem_range, decide_eq_true_eq, Option.map_eq_some_iff]
  constructor
  · rintro ⟨_, h⟩; exact h
  · rintro ⟨r, hr, hk⟩
    exact ⟨(List.getElem?_eq_some_iff.1 hr).1, r, hr, hk⟩

/-- A query made while parallel results are being merged hides the bonds merged later from the neighbour
queries, until the next evaluation. -/
theorem query_between_merges_bug (o : Olp K) (p : List (Rec K)) (k x : Nat)
    (hx : x ∈ neighborIds (merge (fill o) p) k) : x ∈ neighborIds o k := by
  have : fill (merge (fill o) p) = merge (fill o) p := by
    unfold fill
    rw [if_pos]
    exact fill_cached o
  unfold neighborIds at hx ⊢
  rw [this] at hx
  exact hx

/-! ### BVSCalculator and BondCalculator -/

theorem diff_safe (b : Bvs K) (n m i : Nat) (h1 : b.vobs.length = n) (h2 : b.vsim.length = n) :
    (diffLoop b m i).isSome ↔ (m = 0 ∨ i + m ≤ n) := by
  induction m generalizing i with
  | zero => simp [diffLoop]
  | succ m ih =>
    have hdef : diffLoop b (m + 1) i = (rd b.vobs i).bind fun x => (rd b.vsim i).bind fun y =>
      (diffLoop b m (i + 1)).bind fun rest => some ((|x| - |y|) :: rest) := rfl
    rw [hdef]
    by_cases hi : i < n
    · rw [rd_some (h1 ▸ hi), rd_some (h2 ▸ hi), Option.bind_some, Option.bind_some]
      have : ((diffLoop b m (i + 1)).bind fun rest => some ((|b.vobs[i]'(h1 ▸ hi)| - |b.vsim[i]'(h2 ▸ hi)|) :: rest)).isSome =
          (diffLoop b m (i + 1)).isSome := by cases diffLoop b m (i + 1) <;> rfl
      rw [this, ih]
      omega
    · have : rd b.vobs i = none := by unfold rd; simp; omega
      rw [this, Option.bind_none]
      simp only [Option.isSome_none, Bool.false_eq_true, false_iff]
      omega

/-- The mean is the total over the number of atoms, or zero without atoms. -/
theorem mean_value (o : Olp K) (L : List (Site K)) (t : K) (h : totalSquareOverlap o L = some t) :
    meanSquareOverlap o L = some (if 0 < (L.map fun s => s.occ * s.mult).sum then t / (L.map fun s => s.occ * s.mult).sum else 0) := by
  unfold meanSquareOverlap totalOccupancy
  rw [h]
  by_cases hp : 0 < (L.map fun s => s.occ * s.mult).sum
  · rw [if_pos hp, if_pos hp]; rfl
  · rw [if_neg hp, if_neg hp]

/-- After an evaluation with `n` sites, `bvdiff` and `bvmsdiff` are safe exactly as long as the structure has
at most `n` sites. -/
theorem bvs_safe_iff (b : Bvs K) (n : Nat) (h1 : b.vobs.length = n) (h2 : b.vsim.length = n) (L : List (Site K)) :
    (Safe (bvdiff b L) ↔ L.length ≤ n) ∧ (Safe (bvmsdiff b L) ↔ L.length ≤ n) := by
  have h : Safe (bvdiff b L) ↔ L.length ≤ n := by
    unfold Safe bvdiff
    rw [diff_safe b n _ _ h1 h2]
    omega
  refine ⟨h, ?_⟩
  rw [← h]
  have hdef : bvmsdiff b L = (bvdiff b L).bind fun bd => some (if totalOccupancy L > 0 then
    (List.zipWith (fun x (s : Site K) => s.mult * s.occ * x * x) bd L).sum / totalOccupancy L else 0) := rfl
  unfold Safe
  rw [hdef]
  cases bvdiff b L <;> simp

/-- Types of bonds are safe exactly when the sites of all bonds still exist. -/
theorem bond_types_safe_iff (recs : List (Rec K)) (L : List (Site K)) :
    (Safe (bondTypes0 recs L) ↔ ∀ r ∈ recs, r.i < L.length) ∧
    (Safe (bondTypes1 recs L) ↔ ∀ r ∈ recs, r.j < L.length) := by
  unfold Safe bondTypes0 bondTypes1
  rw [types_safe, types_safe]
  simp

/-! ### Examples -/

/-- Two touching atoms. -/
def exRecs : List (Rec ℚ) := [⟨1, (1, 0, 0), 0, 1⟩, ⟨1, (-1, 0, 0), 1, 0⟩]

def exOlp : Olp ℚ := merge (reset [1, 1]) exRecs

theorem exReach : Reach 2 exOlp := .bonds _ _ (.reset _ rfl) (by simp [exRecs])

def exSites : List (Site ℚ) := [⟨"Na", 1, 1⟩, ⟨"Cl", 1, 1⟩]

example : siteSquareOverlaps exOlp exSites = some [1 / 2, 1 / 2] := by decide +kernel

example : types0 exOlp exSites = some ["Na", "Cl"] := by decide +kernel

/-- An atom was erased: the query reads outside the array. -/
example : ¬ Safe (siteSquareOverlaps exOlp [⟨"Na", 1, 1⟩]) := by
  rw [(safe_iff exReach _).2.2.2.1]
  intro h
  have := h ⟨1, (1, 0, 0), 0, 1⟩ (by simp [exOlp, exRecs, merge]) ⟨1, 1, rfl, rfl, by norm_num⟩
  simp at this

/-- An atom was added and its flip is asked for. -/
example : ¬ Safe (flipDiffTotal exOlp (exSites ++ exSites) (fun l => l) 0 2) :=
  flip_grown_bug exReach _ _ 0 2 (by simp [exSites]) (by simp [exSites]) (by decide) (Or.inr le_rfl)

/-- The structure was edited to other types: types are the new ones, overlaps those of the old radii. -/
example : types0 exOlp [⟨"K", 1, 1⟩, ⟨"F", 1, 1⟩] = some ["K", "F"] ∧ overlaps exOlp = some [1, 1] := by decide +kernel

/-- A query between two merges: the bond of site 1 is lost, without the query it is found. -/
example : neighborIds (merge (fill (merge (reset [1, 1]) (exRecs.take 1))) (exRecs.drop 1)) 1 = [] ∧
    neighborIds exOlp 1 = [1] := by decide +kernel

example : ¬ Safe (bvdiff (⟨[1, 2], [1, 1]⟩ : Bvs ℚ) (exSites ++ exSites)) := by
  rw [(bvs_safe_iff _ 2 rfl rfl _).1]
  simp [exSites]

end Verif.Queries
