import Verif.Lemmas.Mask
/-!
# C03, C04, C05, C06 – pair masks

Specification: a mask is the function `getPairMask s : site → site → Bool`.  States range
over *all* states where possible, otherwise over all states reachable by any sequence of
public calls with any container iteration order (`Reach`).
-/
namespace Verif.Mask
open Verif.AssocMap

/-- C03: the mask is symmetric. -/
theorem mask_symmetric (s : State) (a b : Int) : getPairMask s a b = getPairMask s b a :=
  getPairMask_comm s a b

/-- C03: `setPairMask(i, j, m)` for two sites is read back (in both orders) and changes no
other pair. -/
theorem mask_setPair (s : State) (i j : Int) (m : Bool) (hi : 0 ≤ i) (hj : 0 ≤ j) (a b : Int) :
    getPairMask (setPairMask s i j m) a b
      = if (a = i ∧ b = j) ∨ (a = j ∧ b = i) then m else getPairMask s a b := by
  have key : ∀ s' : State, s'.inv = s.inv → s'.dflt = s.dflt →
      getPairMask (setPairMaskValue s' i j m).1 a b
      = if (a = i ∧ b = j) ∨ (a = j ∧ b = i) then m else getPairMask s a b := by
    intro s' h1 h2
    rw [get_setValue]
    simp only [norm_eq_iff]
    unfold getPairMask; rw [h1, h2]
  have h1 : ¬ (i < 0) := by omega
  have h2 : ¬ (j < 0) := by omega
  simp only [setPairMask, h1, h2, if_false, false_and, setOnePairMask]
  have hinv : ∀ t : State, getPairMask t.click a b = getPairMask t a b := fun t => rfl
  split
  · rw [hinv]; exact key _ rfl rfl
  · exact key _ rfl rfl

example : getPairMask (setPairMask (setPairMask init 3 1 false) 1 2 false) 1 3 = false ∧
    getPairMask (setPairMask init 3 1 false) 2 3 = true := by decide

/-- C03: `setPairMask(k, -1, m)` (either argument order, any negative number) masks exactly the
pairs of site `k` with the sites of the current structure. -/
theorem mask_setSiteAll (s : State) (k n : Int) (m : Bool) (hk : 0 ≤ k) (hn : n < 0) (a b : Int) :
    getPairMask (setPairMask s k n m) a b = getPairMask (setPairMask s n k m) a b ∧
    getPairMask (setPairMask s k n m) a b
      = if (a = k ∧ 0 ≤ b ∧ b < s.types.length) ∨ (b = k ∧ 0 ≤ a ∧ a < s.types.length) then m
        else getPairMask s a b := by
  have c5 : ¬ k < 0 := by omega
  constructor
  · simp only [setPairMask, c5, hn, if_true, if_false, and_false, false_and]
  · simp only [setPairMask, c5, hn, if_true, if_false, false_and, setSiteAllMask]
    have hinv : ∀ t : State, getPairMask t.click a b = getPairMask t a b := fun t => rfl
    have key := (setRow_spec { s with typ := [], site := put s.site k m } k m).2 a b
    split
    · rw [hinv]; exact key
    · exact key

example : getPairMask (setPairMask { init with types := ["C", "C", "O"] } 1 (-1) false) 2 1 = false ∧
    getPairMask (setPairMask { init with types := ["C", "C", "O"] } 1 (-1) false) 2 0 = true := by
  decide

/-- C04: `maskAllPairs(m)`, which is also `setPairMask(-1,-1,m)` and
`setTypeMask("all","all",m)`, makes every pair and every type pair read `m`. -/
theorem mask_all (s : State) (m : Bool) :
    (∀ a b, getPairMask (maskAllPairs s m) a b = m) ∧
    (∀ x y, getTypeMask (maskAllPairs s m) x y = m) ∧
    (∀ i j : Int, i < 0 → j < 0 → setPairMask s i j m = maskAllPairs s m) ∧
    setTypeMask s "all" "ALL" m = maskAllPairs s m := by
  refine ⟨?_, ?_, ?_, ?_⟩
  · intro a b; unfold maskAllPairs getPairMask; simp
  · intro x y; unfold maskAllPairs getTypeMask; simp
  · intro i j hi hj; simp [setPairMask, hi, hj]
  · have h : tnorm (canonAll "all") (canonAll "ALL") = (allStr, allStr) := by decide
    simp only [setTypeMask, setTypeMask', h, if_true]

/-- C04: `invertMask` negates every pair and type pair; two inversions restore all answers. -/
theorem mask_invert (s : State) :
    (∀ a b, getPairMask (invertMask s) a b = !getPairMask s a b) ∧
    (∀ x y, getTypeMask (invertMask s) x y = !getTypeMask s x y) ∧
    invertMask (invertMask s) = { s with clicks := s.clicks + 2 } := by
  refine ⟨?_, ?_, ?_⟩
  · intro a b; unfold getPairMask invertMask State.click; dsimp only; split <;> rfl
  · intro x y
    simp only [invertMask, getTypeMask, State.click, find_map_val]
    cases find s.typ (tnorm x y) <;> cases find s.typ (tnorm x allStr) <;>
      cases find s.typ (tnorm y allStr) <;> simp
  · obtain ⟨d, i, st, t, ty, c⟩ := s
    have e : (fun e : Int × Bool => (e.1, !!e.2)) = id := by funext e; simp
    have e' : (fun e : TKey × Bool => (e.1, !!e.2)) = id := by funext e; simp
    simp only [invertMask, State.click, List.map_map, Function.comp_def, Bool.not_not]
    simp

/-- C03/C04: `hasMask()` is false only when no pair is masked out. -/
theorem mask_hasMask_false (s : State) (h : hasMask s = false) (a b : Int) :
    getPairMask s a b = true := by
  simp only [hasMask, Bool.not_eq_false', Bool.and_eq_true, List.isEmpty_iff] at h
  obtain ⟨⟨⟨h1, h2⟩, -⟩, -⟩ := h
  simp [getPairMask, h1, h2]

example : hasMask init = false ∧ hasMask (setPairMask init 0 1 false) = true := by decide

/-- Every reachable state has well-formed containers and never has both site-all masks and type
masks. -/
theorem reach_wf {s : State} (h : Reach s) : WF s := by
  induction h with
  | init => exact ⟨by simp [init, keys], by simp [init, keys], by simp [init, keys],
      by simp [init, keys], Or.inl rfl⟩
  | @step s h op hv ih =>
    have hall : ∀ m, WF (maskAllPairs s m) := by
      intro m
      refine ⟨?_, ?_, ?_, ?_, Or.inl ?_⟩ <;> simp [maskAllPairs, keys]
    cases op with
    | maskAll m => exact hall m
    | invert =>
      obtain ⟨a, b, c, d, e⟩ := ih
      refine ⟨?_, ?_, ?_, ?_, ?_⟩ <;> simp only [step, invertMask, keys_map_val] <;> try assumption
      rcases e with e | e <;> simp [e]
    | pair i j m =>
      simp only [step, setPairMask]
      have base : ∀ st, (keys st).Nodup → ∀ t : State, t.typ = [] → t.site = st → WF t := by
        intro st hst t ht hs
        exact ⟨by simp [ht, keys], by simp [ht, keys], by simp [ht, keys], by rwa [hs], Or.inr ht⟩
      have hone : ∀ k, WF (setSiteAllMask s k m) := by
        intro k
        have hr := (setRow_spec { s with typ := [], site := put s.site k m } k m).1
        simp only [setSiteAllMask]
        split <;> exact base (put s.site k m) (nodup_put _ _ ih.snodup) _ hr.2.2.1 hr.2.1
      have hdrop : ∀ st : List (Int × Bool), ∀ k, (keys st).Nodup → (keys (dropSite st k m).1).Nodup := by
        intro st k h; unfold dropSite
        (repeat' split) <;> first | exact h | exact nodup_erase _ h
      split
      · exact hall m
      · split
        · exact hone j
        · split
          · exact hone i
          · simp only [setOnePairMask]
            split <;> exact base _ (hdrop _ j (hdrop _ i ih.snodup)) _ rfl rfl
    | typ a b m =>
      simp only [step, setTypeMask]
      generalize canonAll a = A
      generalize canonAll b = B
      unfold setTypeMask'
      by_cases hne : tnorm A B = (allStr, allStr)
      · simp only [hne, if_true]; exact hall m
      · simp only [hne, if_false]
        have base : ∀ (L : List (TKey × Bool)), L.Sublist s.typ → ∀ t : State,
            t.typ = put L (tnorm A B) m → t.site = [] → WF t := by
          intro L hL t ht hs
          have hk : (keys L).Sublist (keys s.typ) := hL.map _
          have hm : ∀ k ∈ keys t.typ, k = tnorm A B ∨ k ∈ keys s.typ := by
            intro k hk'; rw [ht] at hk'
            rcases mem_keys_put hk' with h | h
            · exact Or.inl h
            · exact Or.inr (hk.subset h)
          refine ⟨?_, ?_, ?_, ?_, Or.inl hs⟩
          · rw [ht]; exact nodup_put _ _ (ih.tnodup.sublist hk)
          · intro k hk'
            rcases hm k hk' with h | h
            · rw [h]; exact tnorm_tnorm A B
            · exact ih.tnormed k h
          · intro k hk'
            rcases hm k hk' with h | h
            · rw [h]; exact hne
            · exact ih.tnotall k h
          · rw [hs]; simp [keys]
        generalize (if A ≠ allStr then A else B) = sk
        split <;> exact base _ List.filter_sublist _ rfl rfl
    | stru types sord tord =>
      have := sameRest_update sord tord { s with types := types }
      exact ih.of_fields this.2.2.1 this.2.1

/-- A reachable state with both an all-mask and a specific type mask. -/
def demoTyped : State :=
  step (step init (.typ "C" "all" false)) (.typ "C" "O" true)

theorem demoTyped_reach : Reach demoTyped :=
  Reach.step (Reach.step Reach.init (.typ "C" "all" false) trivial) (.typ "C" "O" true) trivial

example : WF demoTyped := reach_wf demoTyped_reach

/-- Two "all" type masks disagree about the pair of types `x`, `y`. -/
def TypeConflict (s : State) (x y : String) : Prop :=
  find s.typ (tnorm x y) = none ∧
  ∃ v, find s.typ (tnorm x allStr) = some v ∧ find s.typ (tnorm y allStr) = some (!v)

/-- C05: in every reachable state with type masks, and for every iteration order of the hash
containers, after a structure is set the mask of sites `i`, `j` is the type mask of their atom
types, unless two "all" masks contradict each other; then it is one of the two. -/
theorem mask_types_partial (s : State) (hr : Reach s) (ht : hasTypeMask s = true)
    (types : List String) (hall : allStr ∉ types)
    (sord : List (Int × Bool)) (tord : List (TKey × Bool)) (hp : tord.Perm s.typ)
    (i j : Nat) (x y : String) (hi : types[i]? = some x) (hj : types[j]? = some y) :
    (¬ TypeConflict s x y →
      getPairMask (setStructure sord tord s types) i j = getTypeMask s x y) ∧
    (getPairMask (setStructure sord tord s types) i j = getTypeMask s x y ∨
      getPairMask (setStructure sord tord s types) i j = getTypeMask s y x) := by
  have wf := reach_wf hr
  have hx : x ≠ allStr := fun h => hall (h ▸ List.mem_of_getElem? hi)
  have hy : y ≠ allStr := fun h => hall (h ▸ List.mem_of_getElem? hj)
  have hne : ¬ (s.typ.isEmpty = true) := by simpa [hasTypeMask] using ht
  set s0 : State := { s with types := types, inv := [] } with hs0
  have hset : setStructure sord tord s types = (orderedPairs tord).foldl applyTypePair s0 := by
    simp only [setStructure, updateMaskData, hs0]
    rw [if_neg (by simpa using hne)]
  have hkeys : ∀ k, k ∈ keys tord ↔ k ∈ keys s.typ := fun k => (hp.map _).mem_iff
  have hfm : ∀ k, k ∈ keys s.typ ↔ ∃ v, find s.typ k = some v := by
    intro k
    cases h : find s.typ k with
    | none => simp [find_eq_none_iff.1 h]
    | some v => simp only [Option.some.injEq, exists_eq', iff_true]
                exact List.mem_map.2 ⟨_, mem_of_find h, rfl⟩
  -- keys that cover the pair
  have hcov : ∀ k ∈ keys s.typ, Covers k x y →
      (hasAll k = false ∧ k = tnorm x y) ∨
      (hasAll k = true ∧ (k = tnorm x allStr ∨ k = tnorm y allStr)) := by
    intro k hk hc
    have hn := wf.tnormed k hk
    have hna := wf.tnotall k hk
    have h2 : ¬ (k.1 = allStr ∧ k.2 = allStr) := fun h => hna (Prod.ext h.1 h.2)
    by_cases ha : hasAll k = true
    · right; refine ⟨ha, ?_⟩
      simp only [hasAll, Bool.or_eq_true, decide_eq_true_eq] at ha
      unfold Covers Matches at hc
      rw [← hn]
      simp only [tnorm_eq_iff]
      rcases ha with h | h
      · have h3 : k.2 ≠ allStr := fun h' => h2 ⟨h.symm, h'⟩
        rcases hc with ⟨-, h4 | h4⟩ | ⟨-, h4 | h4⟩
        · exact absurd h4 h3
        · exact Or.inr (Or.inr ⟨h.symm, h4⟩)
        · exact absurd h4 h3
        · exact Or.inl (Or.inr ⟨h.symm, h4⟩)
      · have h3 : k.1 ≠ allStr := fun h' => h2 ⟨h', h.symm⟩
        rcases hc with ⟨h4 | h4, -⟩ | ⟨h4 | h4, -⟩
        · exact absurd h4 h3
        · exact Or.inl (Or.inl ⟨h4, h.symm⟩)
        · exact absurd h4 h3
        · exact Or.inr (Or.inl ⟨h4, h.symm⟩)
    · left
      have ha' : hasAll k = false := by simpa using ha
      refine ⟨ha', ?_⟩
      simp only [hasAll, Bool.or_eq_false_iff, decide_eq_false_iff_not] at ha'
      unfold Covers Matches at hc
      rw [← hn, tnorm_eq_iff]
      have e1 : k.1 ≠ allStr := fun h => ha'.1 h.symm
      have e2 : k.2 ≠ allStr := fun h => ha'.2 h.symm
      simp only [e1, e2, false_or] at hc
      exact hc
  have hxy_noall : hasAll (tnorm x y) = false := by
    rcases tnorm_cases x y with h | h <;> rw [h] <;>
      simp [hasAll, Ne.symm hx, Ne.symm hy]
  have hx_all : hasAll (tnorm x allStr) = true := by
    rcases tnorm_cases x allStr with h | h <;> rw [h] <;> simp [hasAll]
  have hy_all : hasAll (tnorm y allStr) = true := by
    rcases tnorm_cases y allStr with h | h <;> rw [h] <;> simp [hasAll]
  have cov1 : Covers (tnorm x y) x y := by
    rcases tnorm_cases x y with h | h <;> rw [h] <;> simp [Covers, Matches]
  have cov2 : Covers (tnorm x allStr) x y := by
    rcases tnorm_cases x allStr with h | h <;> rw [h] <;> simp [Covers, Matches]
  have cov3 : Covers (tnorm y allStr) x y := by
    rcases tnorm_cases y allStr with h | h <;> rw [h] <;> simp [Covers, Matches]
  -- the two halves of the fold
  set LA := (keys (tord.filter (fun e => hasAll e.1))).reverse with hLA
  set LB := keys (tord.filter (fun e => !hasAll e.1)) with hLB
  have memA : ∀ k, k ∈ LA ↔ k ∈ keys s.typ ∧ hasAll k = true := by
    intro k; rw [← hkeys]
    simp only [hLA, keys, List.mem_reverse, List.mem_map, List.mem_filter]
    constructor
    · rintro ⟨e, ⟨h1, h2⟩, rfl⟩; exact ⟨⟨e, h1, rfl⟩, h2⟩
    · rintro ⟨⟨e, h1, rfl⟩, h2⟩; exact ⟨e, ⟨h1, h2⟩, rfl⟩
  have memB : ∀ k, k ∈ LB ↔ k ∈ keys s.typ ∧ hasAll k = false := by
    intro k; rw [← hkeys]
    simp only [hLB, keys, List.mem_map, List.mem_filter, Bool.not_eq_true']
    constructor
    · rintro ⟨e, ⟨h1, h2⟩, rfl⟩; exact ⟨⟨e, h1, rfl⟩, h2⟩
    · rintro ⟨⟨e, h1, rfl⟩, h2⟩; exact ⟨e, ⟨h1, h2⟩, rfl⟩
  rw [hset, orderedPairs_eq, List.foldl_append]
  obtain ⟨rA, gA⟩ := fold_applyTypePair LA s0
  obtain ⟨rB, gB⟩ := fold_applyTypePair LB (LA.foldl applyTypePair s0)
  have hi1 : (LA.foldl applyTypePair s0).types[i]? = some x := by rw [rA.2.2.2.1]; exact hi
  have hj1 : (LA.foldl applyTypePair s0).types[j]? = some y := by rw [rA.2.2.2.1]; exact hj
  have hinit : getPairMask s0 i j = s.dflt := by simp [getPairMask, hs0]
  have htyp : s0.typ = s.typ := rfl
  have hdf : s0.dflt = s.dflt := rfl
  rcases gB i j x y hi1 hj1 with ⟨k, hk, hc, hv⟩ | ⟨hn, hv⟩
  · -- an exact entry decides
    rw [memB] at hk
    have hkxy : k = tnorm x y := by
      rcases hcov k hk.1 hc with h | h
      · exact h.2
      · rw [h.1] at hk; simp at hk
    subst hkxy
    obtain ⟨v, hfv⟩ := (hfm _).1 hk.1
    rw [hv, rA.2.2.1, htyp, hfv]
    have h1 : getTypeMask s x y = v := by simp [getTypeMask, hfv]
    rw [h1]; exact ⟨fun _ => rfl, Or.inl rfl⟩
  · have hno : find s.typ (tnorm x y) = none := by
      rw [find_eq_none_iff]; intro hk
      exact hn _ ((memB _).2 ⟨hk, hxy_noall⟩) cov1
    have hno' : find s.typ (tnorm y x) = none := by rw [tnorm_comm]; exact hno
    rw [hv]
    rcases gA i j x y hi hj with ⟨k, hk, hc, hv'⟩ | ⟨hn', hv'⟩
    · rw [memA] at hk
      obtain ⟨v, hfv⟩ := (hfm _).1 hk.1
      rw [hv', htyp, hfv, Option.getD_some]
      rcases hcov k hk.1 hc with h | ⟨-, h | h⟩
      · rw [h.1] at hk; simp at hk
      · subst h
        have h1 : getTypeMask s x y = v := by simp [getTypeMask, hno, hfv]
        rw [h1]; exact ⟨fun _ => rfl, Or.inl rfl⟩
      · subst h
        have h2 : getTypeMask s y x = v := by simp [getTypeMask, hno', hfv]
        refine ⟨fun hnc => ?_, Or.inr h2.symm⟩
        cases hfx : find s.typ (tnorm x allStr) with
        | none => simp [getTypeMask, hno, hfx, hfv]
        | some w =>
          have : w = v := by
            by_contra hwv
            apply hnc
            refine ⟨hno, w, hfx, ?_⟩
            rw [hfv]; cases v <;> cases w <;> simp_all
          simp [getTypeMask, hno, hfx, this]
    · have hx0 : find s.typ (tnorm x allStr) = none := by
        rw [find_eq_none_iff]; intro hk
        exact hn' _ ((memA _).2 ⟨hk, hx_all⟩) cov2
      have hy0 : find s.typ (tnorm y allStr) = none := by
        rw [find_eq_none_iff]; intro hk
        exact hn' _ ((memA _).2 ⟨hk, hy_all⟩) cov3
      rw [hv', hinit]
      have h1 : getTypeMask s x y = s.dflt := by simp [getTypeMask, hno, hx0, hy0]
      rw [h1]; exact ⟨fun _ => rfl, Or.inl rfl⟩

example : hasTypeMask demoTyped = true ∧ allStr ∉ ["C", "O", "C", "Na"] ∧
    getTypeMask demoTyped "O" "C" = true ∧ getTypeMask demoTyped "Na" "C" = false := by
  decide

/-- State with contradicting "all" masks: A-all is on, B-all is off. -/
def demoConflict : State :=
  step (step init (.typ "A" "all" true)) (.typ "B" "all" false)

theorem demoConflict_reach : Reach demoConflict :=
  Reach.step (Reach.step Reach.init (.typ "A" "all" true) trivial) (.typ "B" "all" false) trivial

/-- C05 is false in full: for contradicting "all" masks the pair mask depends on the iteration
order of the hash map. -/
theorem mask_types_order_dependent :
    ∃ s, Reach s ∧ ∃ t₁ t₂ : List (TKey × Bool), t₁.Perm s.typ ∧ t₂.Perm s.typ ∧
      getPairMask (setStructure [] t₁ s ["A", "B"]) 0 1 = true ∧
      getPairMask (setStructure [] t₂ s ["A", "B"]) 0 1 = false :=
  ⟨demoConflict, demoConflict_reach, demoConflict.typ.reverse, demoConflict.typ,
    List.reverse_perm _, List.Perm.refl _, by decide, by decide⟩

/-- C05: `getTypeMask` is not symmetric for contradicting "all" masks. -/
theorem getTypeMask_not_symmetric :
    ∃ s, Reach s ∧ getTypeMask s "A" "B" ≠ getTypeMask s "B" "A" :=
  ⟨demoConflict, demoConflict_reach, by decide⟩

/-- C05: otherwise `getTypeMask` is symmetric. -/
theorem getTypeMask_symmetric (s : State) (x y : String) (h : ¬ TypeConflict s x y) :
    getTypeMask s x y = getTypeMask s y x := by
  unfold getTypeMask
  rw [tnorm_comm y x]
  unfold TypeConflict at h
  cases hxy : find s.typ (tnorm x y) with
  | some v => simp
  | none =>
    simp only [hxy, true_and, not_exists, not_and] at h
    cases hx : find s.typ (tnorm x allStr) with
    | none => cases hy : find s.typ (tnorm y allStr) <;> simp
    | some v =>
      cases hy : find s.typ (tnorm y allStr) with
      | none => simp
      | some w =>
        have := h v hx
        rw [hy] at this
        cases v <;> cases w <;> simp_all

example : ¬ TypeConflict demoTyped "C" "O" := by
  rintro ⟨h, -⟩; revert h; decide

/-- C05: when `hasPairMask()` is false the masks do not depend on the site indices: pairs of sites with the same atom types
have the same mask, in one structure or in two, unless "all" masks contradict each other about these types.  This is what
the fast evaluation relies on when it matches atoms of two structures without keeping their indices
(PQEvaluator.cpp:196-200). -/
theorem mask_by_types (s : State) (hr : Reach s) (h : hasPairMask s = false)
    (types types' : List String) (hall : allStr ∉ types) (hall' : allStr ∉ types')
    (sord sord' : List (Int × Bool)) (hs : sord.Perm s.site) (hs' : sord'.Perm s.site)
    (tord tord' : List (TKey × Bool)) (hp : tord.Perm s.typ) (hp' : tord'.Perm s.typ)
    (i j i' j' : Nat) (x y : String) (hi : types[i]? = some x) (hj : types[j]? = some y)
    (hi' : types'[i']? = some x) (hj' : types'[j']? = some y) (hc : ¬ TypeConflict s x y) :
    getPairMask (setStructure sord tord s types) i j = getPairMask (setStructure sord' tord' s types') i' j' := by
  cases ht : hasTypeMask s with
  | true =>
    rw [(mask_types_partial s hr ht types hall sord tord hp i j x y hi hj).1 hc,
      (mask_types_partial s hr ht types' hall' sord' tord' hp' i' j' x y hi' hj').1 hc]
  | false =>
    have hm : hasMask s = false := by simpa [hasPairMask, ht] using h
    simp only [hasMask, Bool.not_eq_false', Bool.and_eq_true, List.isEmpty_iff] at hm
    obtain ⟨⟨⟨h1, h2⟩, h3⟩, h4⟩ := hm
    have e : ∀ (so : List (Int × Bool)) (td : List (TKey × Bool)) (ty : List String), so.Perm s.site →
        ∀ a b : Int, getPairMask (setStructure so td s ty) a b = true := by
      intro so td ty hso a b
      have : so = [] := by rw [h3] at hso; exact List.perm_nil.1 hso
      subst this
      simp [setStructure, updateMaskData, h4, getPairMask, h1, h2]
    rw [e sord tord types hs, e sord' tord' types' hs']

/-- C05: a mask of one pair of sites makes `hasPairMask()` true as long as no type mask is set. -/
theorem pairmask_seen (s : State) (ht : hasTypeMask s = false) (i j : Int) (h : getPairMask s i j = false) :
    hasPairMask s = true := by
  cases hm : hasMask s with
  | true => simp [hasPairMask, hm, ht]
  | false =>
    have := mask_hasMask_false s hm i j
    rw [this] at h
    exact absurd h (by decide)

example : hasPairMask demoTyped = false ∧ hasTypeMask demoTyped = true ∧
    hasPairMask (setPairMask init 0 1 false) = true := by decide

/-- C03 with a later structure change: a pair mask set by `setPairMask(i,j,m)` is still read back
after any new structure (with any site count and iteration order) is set. -/
theorem mask_setPair_survives_structure (s : State) (hr : Reach s) (i j : Int) (m : Bool)
    (hi : 0 ≤ i) (hj : 0 ≤ j) (types : List String)
    (sord : List (Int × Bool)) (tord : List (TKey × Bool))
    (hp : sord.Perm (setPairMask s i j m).site) :
    getPairMask (setStructure sord tord (setPairMask s i j m) types) i j = m := by
  have h0 := mask_setPair s i j m hi hj i j
  rw [if_pos (Or.inl ⟨rfl, rfl⟩)] at h0
  set t := setPairMask s i j m with htdef
  have h1 : ¬ (i < 0) := by omega
  have h2 : ¬ (j < 0) := by omega
  have htyp : t.typ = [] := by
    rw [htdef]; simp only [setPairMask, h1, h2, if_false, false_and, setOnePairMask]
    split <;> rfl
  have hsite : ∀ k, (k = i ∨ k = j) → find t.site k = none ∨ find t.site k = some m := by
    have hts : t.site = (dropSite (dropSite s.site i m).1 j m).1 := by
      rw [htdef]; simp only [setPairMask, h1, h2, if_false, false_and, setOnePairMask]
      split <;> rfl
    have hd1 : ∀ st k, find (dropSite st k m).1 k = none ∨ find (dropSite st k m).1 k = some m := by
      intro st k
      unfold dropSite
      split
      · rename_i v hv
        split
        · left; simp [find_erase]
        · rename_i h; right; rw [hv]; simp at h; rw [h]
      · rename_i hv; left; exact hv
    have hd2 : ∀ st k l, find (dropSite st k m).1 l = none ∨ find (dropSite st k m).1 l = find st l := by
      intro st k l
      unfold dropSite
      split
      · split
        · simp only [find_erase]; split <;> simp
        · right; rfl
      · right; rfl
    intro k hk
    rw [hts]
    rcases hk with rfl | rfl
    · rcases hd2 (dropSite s.site k m).1 j k with h | h
      · exact Or.inl h
      · rw [h]; exact hd1 _ _
    · exact hd1 _ _
  have wf : WF t := reach_wf (Reach.step hr (.pair i j m) trivial)
  unfold setStructure updateMaskData
  simp only [htyp, List.isEmpty_nil, if_true]
  have hmem : ∀ e ∈ sord, (i = e.1 ∨ j = e.1) → e.2 = m := by
    intro e he hc
    have he' : e ∈ t.site := hp.mem_iff.1 he
    have hf : find t.site e.1 = some e.2 := (find_eq_some_iff wf.snodup).2 he'
    rcases hsite e.1 (by rcases hc with h | h <;> simp [h]) with h | h
    · rw [h] at hf; cases hf
    · rw [h] at hf; cases hf; rfl
  have gen : ∀ (L : List (Int × Bool)) (u : State), (∀ e ∈ L, (i = e.1 ∨ j = e.1) → e.2 = m) →
      getPairMask u i j = m → getPairMask (L.foldl (fun s e => setRow s e.1 e.2) u) i j = m := by
    intro L
    induction L with
    | nil => intro u _ h; exact h
    | cons e L ih =>
      intro u hL hu
      rw [List.foldl_cons]
      apply ih _ (fun e he => hL e (List.mem_cons_of_mem _ he))
      rw [(setRow_spec u e.1 e.2).2]
      split
      · rename_i hc
        exact hL e (by simp) (by omega)
      · exact hu
  exact gen sord _ hmem h0

example : Reach (step init (.pair 0 (-1) false)) :=
  Reach.step Reach.init _ trivial

/-- C03 is false in full for site-all masks: after `setPairMask(0,-1,false)` and then
`setPairMask(1,-1,true)` the pair (0,1) reads true, but setting a structure may turn it to
false, depending on the iteration order of the hash map. -/
theorem mask_siteAll_lost_on_structure :
    ∃ s, Reach s ∧ getPairMask (setPairMask s 1 (-1) true) 0 1 = true ∧
      ∃ so₁ so₂ : List (Int × Bool),
        so₁.Perm (setPairMask s 1 (-1) true).site ∧ so₂.Perm (setPairMask s 1 (-1) true).site ∧
        getPairMask (setStructure so₁ [] (setPairMask s 1 (-1) true) ["C", "C"]) 0 1 = true ∧
        getPairMask (setStructure so₂ [] (setPairMask s 1 (-1) true) ["C", "C"]) 0 1 = false := by
  refine ⟨step (step init (.stru ["C", "C"] [] [])) (.pair 0 (-1) false), ?_, by decide,
    [(0, false), (1, true)], [(1, true), (0, false)], by decide, by decide, by decide, by decide⟩
  exact Reach.step (Reach.step Reach.init (.stru ["C", "C"] [] []) ⟨List.Perm.refl _, List.Perm.refl _⟩)
    (.pair 0 (-1) false) trivial

/-- C04: inverting the mask before or after a structure is set gives the same answers, for the
same container iteration order. -/
theorem mask_invert_structure (s : State) (types : List String)
    (sord : List (Int × Bool)) (tord : List (TKey × Bool)) (a b : Int) :
    getPairMask (setStructure (sord.map fun e => (e.1, !e.2)) (tord.map fun e => (e.1, !e.2))
        (invertMask s) types) a b
      = !getPairMask (setStructure sord tord s types) a b := by
  -- simulation: same exception set, opposite default
  let R (u v : State) : Prop := v.inv = u.inv ∧ v.dflt = !u.dflt ∧ v.types = u.types ∧
    v.typ = u.typ.map (fun e => (e.1, !e.2))
  have hget : ∀ u v, R u v → getPairMask v a b = !getPairMask u a b := by
    rintro u v ⟨h1, h2, -, -⟩; simp only [getPairMask, h1, h2]; split <;> simp
  have hval : ∀ u v i j m, R u v → R (setPairMaskValue u i j m).1 (setPairMaskValue v i j (!m)).1 := by
    rintro u v i j m ⟨h1, h2, h3, h4⟩
    refine ⟨?_, h2, h3, h4⟩
    simp only [setPairMaskValue, h1, h2]
    cases m <;> cases u.dflt <;> simp
  have hfold : ∀ {α : Type} (f : α → Int × Int) (m : Bool) (L : List α) (u v : State), R u v →
      R (L.foldl (fun s x => (setPairMaskValue s (f x).1 (f x).2 m).1) u)
        (L.foldl (fun s x => (setPairMaskValue s (f x).1 (f x).2 (!m)).1) v) := by
    intro α f m L
    induction L with
    | nil => intro u v h; exact h
    | cons x L ih => intro u v h; exact ih _ _ (hval u v _ _ m h)
  have hrow : ∀ u v k m, R u v → R (setRow u k m) (setRow v k (!m)) := by
    intro u v k m h
    have := hfold (fun l : Nat => (k, (l : Int))) m (List.range u.types.length) u v h
    unfold setRow; rw [h.2.2.1]; exact this
  have happ : ∀ u v tp, R u v → R (applyTypePair u tp) (applyTypePair v tp) := by
    intro u v tp h
    have := hfold (fun p : Nat × Nat => ((p.1 : Int), (p.2 : Int))) ((find u.typ tp).getD u.dflt)
      (typePairs u.types tp) u v h
    unfold applyTypePair
    have e : (find v.typ tp).getD v.dflt = !((find u.typ tp).getD u.dflt) := by
      rw [h.2.2.2, h.2.1, find_map_val]; cases find u.typ tp <;> simp
    rw [h.2.2.1, e]; exact this
  apply hget
  unfold setStructure updateMaskData
  have h0 : R { s with types := types } { invertMask s with types := types } :=
    ⟨rfl, rfl, rfl, rfl⟩
  have he : (invertMask s).typ.isEmpty = s.typ.isEmpty := by simp [invertMask]
  simp only [he]
  split
  · have gen : ∀ (L : List (Int × Bool)) (u v : State), R u v →
        R (L.foldl (fun s e => setRow s e.1 e.2) u)
          ((L.map fun e => (e.1, !e.2)).foldl (fun s e => setRow s e.1 e.2) v) := by
      intro L
      induction L with
      | nil => intro u v h; exact h
      | cons x L ih => intro u v h; exact ih _ _ (hrow u v x.1 x.2 h)
    exact gen sord _ _ h0
  · have gen : ∀ (L : List TKey) (u v : State), R u v →
        R (L.foldl applyTypePair u) (L.foldl applyTypePair v) := by
      intro L
      induction L with
      | nil => intro u v h; exact h
      | cons x L ih => intro u v h; exact ih _ _ (happ u v x h)
    have ho : orderedPairs (tord.map fun e => (e.1, !e.2)) = orderedPairs tord := by
      simp only [orderedPairs, List.foldl_map]
    rw [ho]
    exact gen _ _ _ ⟨rfl, rfl, rfl, rfl⟩

example : getPairMask (setStructure [(0, true)] [] (invertMask (step init (.pair 0 (-1) false)))
    ["C", "C"]) 0 1 = true := by decide

/-- A call that introduces no contradiction between "all" masks: a site-all mask does not
contradict the site-all mask of another site, a type-all mask does not contradict the type-all
mask of another type. -/
def Op.Consistent (s : State) : Op → Prop
  | .pair i j m =>
      ∀ k, (0 ≤ k) → (i < 0 ∧ j = k ∨ j < 0 ∧ i = k) → ∀ l, l ≠ k → find s.site l ≠ some (!m)
  | .typ a b m =>
      ∀ t, (canonAll a = allStr ∧ canonAll b = t ∨ canonAll b = allStr ∧ canonAll a = t) →
        ∀ x, x ≠ t → find s.typ (tnorm x allStr) ≠ some (!m)
  | _ => True

/-- States reachable by consistent calls. -/
inductive ReachC : State → Prop
  | init : ReachC init
  | step {s : State} (h : ReachC s) (op : Op) (hv : op.Valid s) (hc : op.Consistent s) :
      ReachC (step s op)

theorem ReachC.reach {s : State} (h : ReachC s) : Reach s := by
  induction h with
  | init => exact Reach.init
  | step h op hv hc ih => exact Reach.step ih op hv

theorem find_dropSite_self (st : List (Int × Bool)) (k : Int) (m : Bool) :
    find (dropSite st k m).1 k = none ∨ find (dropSite st k m).1 k = some m := by
  unfold dropSite
  split
  · rename_i v hv
    split
    · left; simp [find_erase]
    · rename_i h; right; rw [hv]; simp at h; rw [h]
  · rename_i hv; left; exact hv

theorem find_dropSite_or (st : List (Int × Bool)) (k l : Int) (m : Bool) :
    find (dropSite st k m).1 l = none ∨ find (dropSite st k m).1 l = find st l := by
  unfold dropSite
  split
  · split
    · simp only [find_erase]; split <;> simp
    · right; rfl
  · right; rfl

/-- Invariant of consistent histories: all site-all masks have one value, and it is in effect for
every pair of such a site. -/
theorem reachC_inv {s : State} (h : ReachC s) :
    (∀ k k' v v', find s.site k = some v → find s.site k' = some v' → v = v') ∧
    (∀ k v, find s.site k = some v → ∀ l : Int, 0 ≤ l → l < s.types.length →
      getPairMask s k l = v) := by
  induction h with
  | init => simp [init]
  | @step s h op hv hc ih =>
    obtain ⟨ihK, ihJ⟩ := ih
    have wf := reach_wf h.reach
    have hnil : ∀ t : State, t.site = [] → (∀ k k' v v', find t.site k = some v →
        find t.site k' = some v' → v = v') ∧ (∀ k v, find t.site k = some v → ∀ l : Int, 0 ≤ l →
        l < t.types.length → getPairMask t k l = v) := by
      intro t ht; rw [ht]; simp
    have hclick : ∀ (t : State) a b, getPairMask t.click a b = getPairMask t a b := fun _ _ _ => rfl
    have hsa : ∀ k m, (∀ l, l ≠ k → find s.site l ≠ some (!m)) →
        (∀ k1 k' v v', find (setSiteAllMask s k m).site k1 = some v →
          find (setSiteAllMask s k m).site k' = some v' → v = v') ∧
        (∀ k1 v, find (setSiteAllMask s k m).site k1 = some v → ∀ l : Int, 0 ≤ l →
          l < (setSiteAllMask s k m).types.length → getPairMask (setSiteAllMask s k m) k1 l = v) := by
      intro k m hcm
      have hrow := setRow_spec { s with typ := [], site := put s.site k m } k m
      have hst : (setSiteAllMask s k m).site = put s.site k m := by
        simp only [setSiteAllMask]; split <;> exact hrow.1.2.1
      have hty : (setSiteAllMask s k m).types = s.types := by
        simp only [setSiteAllMask]; split <;> exact hrow.1.2.2.2.1
      have hg : ∀ a b, getPairMask (setSiteAllMask s k m) a b =
          if (a = k ∧ 0 ≤ b ∧ b < s.types.length) ∨ (b = k ∧ 0 ≤ a ∧ a < s.types.length) then m
          else getPairMask s a b := by
        intro a b
        simp only [setSiteAllMask]
        split
        · rw [hclick]; exact hrow.2 a b
        · exact hrow.2 a b
      have hval : ∀ k1 v, find (setSiteAllMask s k m).site k1 = some v → v = m := by
        intro k1 v hf
        rw [hst, find_put] at hf
        split at hf
        · cases hf; rfl
        · rename_i hne
          have := hcm k1 hne
          rw [hf] at this
          exact eq_of_ne_not this
      refine ⟨?_, ?_⟩
      · intro k1 k' v v' h1 h2; rw [hval _ _ h1, hval _ _ h2]
      · intro k1 v hf l hl0 hl1
        rw [hty] at hl1
        have hvm := hval _ _ hf
        rw [hg]
        split
        · exact hvm.symm
        · rw [hst, find_put] at hf
          split at hf
          · rename_i hk; exfalso; rename_i hnc; exact hnc (Or.inl ⟨hk, hl0, hl1⟩)
          · exact ihJ k1 v hf l hl0 hl1
    cases op with
    | maskAll m => exact hnil _ rfl
    | invert =>
      simp only [step]
      have hf : ∀ k v, find (invertMask s).site k = some v → find s.site k = some (!v) := by
        intro k v h
        simp only [invertMask, find_map_val] at h
        cases h' : find s.site k with
        | none => rw [h'] at h; simp at h
        | some w => rw [h'] at h; simp at h; subst h; simp
      refine ⟨?_, ?_⟩
      · intro k k' v v' h1 h2
        exact Bool.not_inj (ihK _ _ _ _ (hf _ _ h1) (hf _ _ h2))
      · intro k v h1 l hl0 hl1
        rw [(mask_invert s).1, ihJ k (!v) (hf _ _ h1) l hl0 hl1]; simp
    | pair i j m =>
      simp only [step, setPairMask]
      split
      · exact hnil _ rfl
      · split
        · rename_i h1 h2
          exact hsa j m (hc j (by omega) (Or.inl ⟨h2, rfl⟩))
        · split
          · rename_i h2 h3
            exact hsa i m (hc i (by omega) (Or.inr ⟨h3, rfl⟩))
          · rename_i h1 h2 h3
            have hget := fun a b => mask_setPair s i j m (by omega) (by omega) a b
            have hsp : setPairMask s i j m = setOnePairMask s i j m := by
              simp [setPairMask, h2, h3]
            rw [hsp] at hget
            have hst : (setOnePairMask s i j m).site = (dropSite (dropSite s.site i m).1 j m).1 := by
              simp only [setOnePairMask]; split <;> rfl
            have hty : (setOnePairMask s i j m).types = s.types := by
              simp only [setOnePairMask]; split <;> rfl
            have hold : ∀ k v, find (setOnePairMask s i j m).site k = some v →
                find s.site k = some v ∧ ((k = i ∨ k = j) → v = m) := by
              intro k v hk
              rw [hst] at hk
              rcases find_dropSite_or (dropSite s.site i m).1 j k m with e | e
              · rw [e] at hk; cases hk
              · have hk' := e ▸ hk
                rcases find_dropSite_or s.site i k m with e' | e'
                · rw [e'] at hk'; cases hk'
                · refine ⟨e' ▸ hk', ?_⟩
                  rintro (rfl | rfl)
                  · rcases find_dropSite_self s.site k m with e2 | e2
                    · rw [e2] at hk'; cases hk'
                    · rw [e2] at hk'; cases hk'; rfl
                  · rcases find_dropSite_self (dropSite s.site i m).1 k m with e2 | e2
                    · rw [e2] at hk; cases hk
                    · rw [e2] at hk; cases hk; rfl
            refine ⟨?_, ?_⟩
            · intro k k' v v' a b; exact ihK _ _ _ _ (hold _ _ a).1 (hold _ _ b).1
            · intro k v hk l hl0 hl1
              rw [hty] at hl1
              rw [hget]
              split
              · rename_i hcase
                refine ((hold _ _ hk).2 ?_).symm
                rcases hcase with ⟨h, -⟩ | ⟨h, -⟩
                · exact Or.inl h
                · exact Or.inr h
              · exact ihJ k v (hold _ _ hk).1 l hl0 hl1
    | typ a b m =>
      apply hnil
      simp only [step, setTypeMask, setTypeMask']
      split
      · rfl
      · generalize (if canonAll a ≠ allStr then canonAll a else canonAll b) = sk
        split <;> rfl
    | stru types sord tord =>
      simp only [step, setStructure]
      have hsr := sameRest_update sord tord { s with types := types }
      rw [hsr.2.1]
      refine ⟨ihK, ?_⟩
      intro k v hk l hl0 hl1
      rw [hsr.2.2.2.1] at hl1
      have htyp : s.typ = [] := by
        rcases wf.excl with h | h
        · rw [h] at hk; simp at hk
        · exact h
      unfold updateMaskData
      simp only [htyp, List.isEmpty_nil, if_true]
      have hkm : (k, v) ∈ sord := hv.1.mem_iff.2 (mem_of_find hk)
      have hone : ∀ e ∈ sord, e.2 = v := by
        intro e he
        have : find s.site e.1 = some e.2 := (find_eq_some_iff wf.snodup).2 (hv.1.mem_iff.1 he)
        exact ihK _ _ _ _ this hk
      have gen : ∀ (L : List (Int × Bool)) (u : State), (∀ e ∈ L, e.2 = v) →
          l < u.types.length → ((k, v) ∈ L ∨ getPairMask u k l = v) →
          getPairMask (L.foldl (fun s e => setRow s e.1 e.2) u) k l = v := by
        intro L
        induction L with
        | nil => intro u _ _ h; simpa using h
        | cons e L ih =>
          intro u hL hlu hor
          rw [List.foldl_cons]
          have hspec := setRow_spec u e.1 e.2
          apply ih _ (fun e he => hL e (List.mem_cons_of_mem _ he)) (by rw [hspec.1.2.2.2.1]; exact hlu)
          have hev := hL e (by simp)
          rcases hor with hm | hg
          · rcases List.mem_cons.1 hm with rfl | hm
            · right; rw [hspec.2, if_pos (Or.inl ⟨rfl, hl0, hlu⟩)]
            · exact Or.inl hm
          · right; rw [hspec.2, hg, hev]; split <;> rfl
      exact gen sord _ hone hl1 (Or.inl hkm)

/-- C06: in every history without contradicting "all" masks, a mask call that does not click
the change ticker changes no pair mask, no type mask and not the kind of masking.
Missing from the full claim: histories with contradicting "all" masks, where it is false. -/
theorem mask_change_clicks_partial (s : State) (h : ReachC s) (op : Op) (hc : op.Consistent s)
    (hop : ∀ types sord tord, op ≠ .stru types sord tord)
    (hclk : (step s op).clicks = s.clicks) :
    (∀ a b, getPairMask (step s op) a b = getPairMask s a b) ∧
    (∀ x y, getTypeMask (step s op) x y = getTypeMask s x y) ∧
    hasTypeMask (step s op) = hasTypeMask s := by
  obtain ⟨ihK, ihJ⟩ := reachC_inv h
  have hall : ∀ m, (maskAllPairs s m).clicks = s.clicks → maskAllPairs s m = s := by
    intro m hm
    obtain ⟨d, i, st, t, ty, c⟩ := s
    simp only [maskAllPairs, State.click] at hm ⊢
    split at hm
    · simp at hm
    · rename_i hn
      simp only [Bool.not_eq_true', Bool.not_eq_false, Bool.and_eq_true, List.isEmpty_iff, beq_iff_eq] at hn
      obtain ⟨⟨⟨h1, h2⟩, h3⟩, h4⟩ := hn
      subst h1 h2 h3 h4; simp
  have hsa : ∀ k m, (setSiteAllMask s k m).clicks = s.clicks →
      (∀ a b, getPairMask (setSiteAllMask s k m) a b = getPairMask s a b) ∧
      (∀ x y, getTypeMask (setSiteAllMask s k m) x y = getTypeMask s x y) ∧
      hasTypeMask (setSiteAllMask s k m) = hasTypeMask s := by
    intro k m hm
    have hrow := setRow_spec { s with typ := [], site := put s.site k m } k m
    simp only [setSiteAllMask] at hm ⊢
    split at hm
    · exfalso
      have : (setRow { s with typ := [], site := put s.site k m } k m).click.clicks = s.clicks + 1 := by
        simp only [State.click, hrow.1.2.2.2.2]
      omega
    · rename_i hmod
      rw [if_neg hmod]
      simp only [Bool.not_eq_true, Bool.or_eq_false_iff, bne_eq_false_iff_eq, Bool.not_eq_false',
        List.isEmpty_iff] at hmod
      obtain ⟨hf, ht⟩ := hmod
      refine ⟨?_, ?_, ?_⟩
      · intro a b
        rw [hrow.2]
        split
        · rename_i hcase
          rcases hcase with ⟨rfl, h1, h2⟩ | ⟨rfl, h1, h2⟩
          · exact (ihJ _ m hf b h1 h2).symm
          · rw [getPairMask_comm]; exact (ihJ _ m hf a h1 h2).symm
        · rfl
      · intro x y; simp only [getTypeMask, hrow.1.2.2.1, hrow.1.1, ht]
      · simp only [hasTypeMask, hrow.1.2.2.1, ht]
  cases op with
  | stru types sord tord => exact absurd rfl (hop types sord tord)
  | maskAll m =>
    simp only [step] at hclk ⊢
    rw [hall m hclk]; exact ⟨fun _ _ => rfl, fun _ _ => rfl, rfl⟩
  | invert => simp [step, invertMask, State.click] at hclk
  | pair i j m =>
    simp only [step, setPairMask] at hclk ⊢
    split at hclk
    · rename_i h1; rw [if_pos h1, hall m hclk]; exact ⟨fun _ _ => rfl, fun _ _ => rfl, rfl⟩
    · rename_i h1
      rw [if_neg h1]
      split at hclk
      · rename_i h2; rw [if_pos h2]; exact hsa j m hclk
      · rename_i h2
        rw [if_neg h2]
        split at hclk
        · rename_i h3; rw [if_pos h3]; exact hsa i m hclk
        · rename_i h3
          rw [if_neg h3]
          simp only [setOnePairMask] at hclk ⊢
          split at hclk
          · simp [State.click, setPairMaskValue] at hclk
          · rename_i hmod
            rw [if_neg hmod]
            simp only [Bool.not_eq_true, Bool.or_eq_false_iff, Bool.not_eq_false', List.isEmpty_iff] at hmod
            obtain ⟨⟨⟨ht, -⟩, -⟩, hr⟩ := hmod
            refine ⟨?_, ?_, ?_⟩
            · intro a b
              rw [get_setValue]
              split
              · rename_i hab
                unfold getPairMask
                rw [hab]
                simp only [setPairMaskValue] at hr
                by_cases hmd : m = s.dflt
                · subst hmd; simp [setErase] at hr; simp [hr]
                · have : (m == s.dflt) = false := by simpa using hmd
                  simp only [this, Bool.false_eq_true, if_false, setInsert] at hr
                  split at hr
                  · rename_i hin
                    rw [if_pos hin]; cases m <;> cases hd : s.dflt <;> simp_all
                  · simp at hr
              · rfl
            · intro x y; simp only [getTypeMask, setPairMaskValue, ht]
            · simp only [hasTypeMask, setPairMaskValue, ht]
  | typ a b m =>
    simp only [Op.Consistent] at hc
    simp only [step, setTypeMask] at hclk ⊢
    revert hc hclk
    generalize canonAll a = A
    generalize canonAll b = B
    intro hc hclk
    unfold setTypeMask' at hclk ⊢
    by_cases hne : tnorm A B = (allStr, allStr)
    · simp only [hne, if_true] at hclk ⊢
      rw [hall m hclk]; exact ⟨fun _ _ => rfl, fun _ _ => rfl, rfl⟩
    · simp only [hne, if_false] at hclk ⊢
      set sk := if A ≠ allStr then A else B with hsk
      set w := decide (A = allStr) || decide (B = allStr) with hw
      split at hclk
      · simp [State.click] at hclk
      · rename_i hmod
        rw [if_neg hmod]
        simp only [Bool.not_eq_true, Bool.or_eq_false_iff, bne_eq_false_iff_eq] at hmod
        obtain ⟨hany, hfab⟩ := hmod
        have hff : ∀ k, find (s.typ.filter fun e => !(w && eraseKey sk (tnorm A B) e.1)) k =
            if (w && eraseKey sk (tnorm A B) k) = true then none else find s.typ k := by
          intro k
          rw [find_filter s.typ (fun k => !(w && eraseKey sk (tnorm A B) k)) k]
          cases (w && eraseKey sk (tnorm A B) k) <;> simp
        have hab0 : eraseKey sk (tnorm A B) (tnorm A B) = false := by simp [eraseKey]
        have hfab' : find s.typ (tnorm A B) = some m := by
          rw [hff, hab0] at hfab; simpa using hfab
        have hnew : ∀ k, find (put (s.typ.filter fun e => !(w && eraseKey sk (tnorm A B) e.1))
            (tnorm A B) m) k = if (w && eraseKey sk (tnorm A B) k) = true then none else find s.typ k := by
          intro k
          rw [find_put, hff]
          split
          · rename_i hk; subst hk; rw [hab0]; simp [hfab']
          · rfl
        have hnonempty : s.typ ≠ [] := by intro h; rw [h] at hfab'; simp at hfab'
        refine ⟨fun _ _ => rfl, ?_, ?_⟩
        · intro x y
          by_cases hw' : w = true
          · -- sk is the other type, the key is (sk, all)
            have hskab : tnorm A B = tnorm sk allStr ∧ sk ≠ allStr ∧
                (A = allStr ∧ B = sk ∨ B = allStr ∧ A = sk) := by
              rw [hw] at hw'
              simp only [Bool.or_eq_true, decide_eq_true_eq] at hw'
              by_cases hA : A = allStr
              · have hB : B ≠ allStr := by
                  intro hB; apply hne; rw [hA, hB]; decide
                have : sk = B := by rw [hsk]; simp [hA]
                rw [this, hA]; exact ⟨tnorm_comm _ _, hB, Or.inl ⟨rfl, rfl⟩⟩
              · have hB : B = allStr := by rcases hw' with h | h; exact absurd h hA; exact h
                have : sk = A := by rw [hsk]; simp [hA]
                rw [this, hB]; exact ⟨rfl, hA, Or.inr ⟨rfl, rfl⟩⟩
            obtain ⟨hab, hska, hdisj⟩ := hskab
            have hcons := hc sk hdisj
            have hval : ∀ k v, find s.typ k = some v → (w && eraseKey sk (tnorm A B) k) = true → v = m := by
              intro k v hf he
              have hmem := mem_of_find hf
              rw [List.any_eq_false] at hany
              have := hany _ hmem
              simp only [he, Bool.true_and] at this
              cases v <;> cases m <;> simp_all
            -- which keys are erased
            have her : ∀ p q, (w && eraseKey sk (tnorm A B) (tnorm p q)) = true ↔
                (sk = p ∨ sk = q) ∧ ¬ (p = allStr ∨ q = allStr) ∨ (sk = p ∨ sk = q) ∧ tnorm p q ≠ tnorm A B := by
              intro p q
              have : (sk = (tnorm p q).1 ∨ sk = (tnorm p q).2) ↔ (sk = p ∨ sk = q) := by
                rcases tnorm_cases p q with h | h <;> rw [h]
                exact or_comm
              simp only [eraseKey, hw', Bool.true_and, Bool.and_eq_true, Bool.not_eq_true',
                decide_eq_false_iff_not, Bool.or_eq_true, decide_eq_true_eq, this]
              constructor
              · rintro ⟨h1, h2⟩; exact Or.inr ⟨h2, h1⟩
              · rintro (⟨h1, h2⟩ | ⟨h1, h2⟩)
                · refine ⟨?_, h1⟩
                  rw [hab, tnorm_eq_iff]
                  rintro (⟨-, h⟩ | ⟨h, -⟩)
                  · exact h2 (Or.inr h)
                  · exact h2 (Or.inl h)
                · exact ⟨h2, h1⟩
            have hall_not : ∀ p, p ≠ sk → (w && eraseKey sk (tnorm A B) (tnorm p allStr)) = false := by
              intro p hp
              rw [Bool.eq_false_iff, ne_eq, her]
              have h2 : ¬ (sk = p ∨ sk = allStr) := by
                rintro (h | h)
                · exact hp h.symm
                · exact hska h
              tauto
            have hsk_not : (w && eraseKey sk (tnorm A B) (tnorm sk allStr)) = false := by
              rw [← hab, hab0]; simp
            have hallkey : ∀ p, find (put (s.typ.filter fun e => !(w && eraseKey sk (tnorm A B) e.1))
                (tnorm A B) m) (tnorm p allStr) = find s.typ (tnorm p allStr) := by
              intro p
              rw [hnew]
              by_cases hp : p = sk
              · subst hp; rw [hsk_not]; simp
              · rw [hall_not p hp]; simp
            have hskall : find s.typ (tnorm sk allStr) = some m := by rw [← hab]; exact hfab'
            simp only [getTypeMask]
            rw [hallkey, hallkey, hnew]
            by_cases hexy : (w && eraseKey sk (tnorm A B) (tnorm x y)) = true
            · rw [if_pos hexy]
              have hsk2 : sk = x ∨ sk = y := by
                rcases (her x y).1 hexy with h | h <;> exact h.1
              have hR : (find s.typ (tnorm x allStr)).getD
                  ((find s.typ (tnorm y allStr)).getD s.dflt) = m := by
                by_cases hx : x = sk
                · rw [hx, hskall]; rfl
                · have hy : y = sk := by rcases hsk2 with h | h; exact absurd h.symm hx; exact h.symm
                  have := hcons x hx
                  cases hfx : find s.typ (tnorm x allStr) with
                  | some v => rw [hfx] at this; exact eq_of_ne_not this
                  | none => rw [hy, hskall]; rfl
              rw [hR]
              cases hfe : find s.typ (tnorm x y) with
              | some v => exact (hval _ _ hfe hexy).symm
              | none => rfl
            · rw [if_neg hexy]
          · have hw0 : w = false := by simpa using hw'
            have hnew0 : ∀ k, find (put (s.typ.filter fun e => !(w && eraseKey sk (tnorm A B) e.1))
                (tnorm A B) m) k = find s.typ k := by
              intro k; rw [hnew, hw0]; simp
            simp only [getTypeMask]
            rw [hnew0, hnew0, hnew0]
        · simp only [hasTypeMask, put, List.isEmpty_cons, Bool.not_false]
          cases hst : s.typ with
          | nil => exact absurd hst hnonempty
          | cons _ _ => simp

/-- Consistent history with a site-all mask; setting the same site-all mask again does not click. -/
def demoC : State := step (step init (.stru ["C", "O"] [] [])) (.pair 0 (-1) false)

example : ReachC demoC ∧ (Op.pair 0 (-1) false).Consistent demoC ∧
    (step demoC (.pair 0 (-1) false)).clicks = demoC.clicks := by
  refine ⟨?_, ?_, by decide⟩
  · refine ReachC.step (ReachC.step ReachC.init (.stru ["C", "O"] [] [])
      ⟨List.Perm.refl _, List.Perm.refl _⟩ trivial) (.pair 0 (-1) false) trivial ?_
    intro k hk hd l hl
    have : (step init (.stru ["C", "O"] [] [])).site = [] := by decide
    rw [this]; simp
  · intro k hk hd l hl
    have hk0 : k = 0 := by omega
    have : demoC.site = [(0, false)] := by decide
    subst hk0
    rw [this]; simp [Ne.symm hl]

/-- C06 is false in full (pair masks): a reachable state in which `setPairMask(0,-1,false)`
changes the mask of the pair (0,1) without clicking the ticker. -/
theorem mask_change_without_click :
    ∃ s, Reach s ∧ getPairMask s 0 1 = true ∧
      getPairMask (setPairMask s 0 (-1) false) 0 1 = false ∧
      (setPairMask s 0 (-1) false).clicks = s.clicks := by
  refine ⟨step (step (step init (.stru ["C", "C"] [] [])) (.pair 0 (-1) false)) (.pair 1 (-1) true),
    ?_, by decide, by decide, by decide⟩
  refine Reach.step (Reach.step (Reach.step Reach.init (.stru ["C", "C"] [] []) ?_)
    (.pair 0 (-1) false) trivial) (.pair 1 (-1) true) trivial
  exact ⟨List.Perm.refl _, List.Perm.refl _⟩

/-- C06 is false in full (type masks): a reachable state in which `setTypeMask("A","all",true)`
changes `getTypeMask("B","A")` without clicking the ticker. -/
theorem typemask_change_without_click :
    ∃ s, Reach s ∧ getTypeMask s "B" "A" = true ∧
      getTypeMask (setTypeMask s "A" "all" true) "B" "A" = false ∧
      (setTypeMask s "A" "all" true).clicks = s.clicks := by
  refine ⟨step demoConflict (.typ "A" "B" true), ?_, by decide, by decide, by decide⟩
  exact Reach.step demoConflict_reach (.typ "A" "B" true) trivial

/-! ### Repeated calls -/

theorem dropSite_again (st : List (Int × Bool)) (k : Int) (m : Bool) (h : find st k = none ∨ find st k = some m) : dropSite st k m = (st, false) := by
  unfold dropSite
  rcases h with h | h
  · rw [h]
  · rw [h]
    simp

theorem setValue_again (s : State) (i j : Int) (m : Bool) (site : List (Int × Bool)) (c : Nat) :
    (setPairMaskValue { (setPairMaskValue s i j m).1 with typ := [], site := site, clicks := c } i j m).2 = false := by
  unfold setPairMaskValue
  dsimp only
  by_cases hm : (m == s.dflt) = true
  · rw [if_pos hm, if_pos hm]
    unfold setErase
    simp
  · rw [if_neg hm, if_neg hm]
    have : norm i j ∈ (setInsert s.inv (norm i j)).1 := (mem_setInsert _ _ _).2 (Or.inr rfl)
    generalize (setInsert s.inv (norm i j)).1 = t at this ⊢
    unfold setInsert
    rw [if_pos this]

/-- C06: a mask call repeated with the same arguments does not click the ticker again. -/
theorem mask_repeat (s : State) (i j : Int) (a b : String) (m : Bool) :
    (setPairMask (setPairMask s i j m) i j m).clicks = (setPairMask s i j m).clicks ∧
    (setTypeMask (setTypeMask s a b m) a b m).clicks = (setTypeMask s a b m).clicks := by
  have hall : (maskAllPairs (maskAllPairs s m) m).clicks = (maskAllPairs s m).clicks := by
    generalize hs : maskAllPairs s m = t
    have h1 : t.inv = [] ∧ t.site = [] ∧ t.typ = [] ∧ t.dflt = m := by
      rw [← hs]
      exact ⟨rfl, rfl, rfl, rfl⟩
    unfold maskAllPairs
    obtain ⟨e1, e2, e3, e4⟩ := h1
    rw [e1, e2, e3, e4]
    simp
  have hrow : ∀ (k : Int) (t : State), (setRow t k m).clicks = t.clicks ∧ (setRow t k m).site = t.site ∧ (setRow t k m).typ = t.typ := by
    intro k t
    obtain ⟨h1, -⟩ := setRow_spec t k m
    exact ⟨h1.2.2.2.2.symm ▸ rfl, h1.2.1.symm ▸ rfl, h1.2.2.1.symm ▸ rfl⟩
  have hsite : ∀ k, (setSiteAllMask (setSiteAllMask s k m) k m).clicks = (setSiteAllMask s k m).clicks := by
    intro k
    generalize hs : setSiteAllMask s k m = t
    have h1 : find t.site k = some m ∧ t.typ = [] := by
      rw [← hs]
      unfold setSiteAllMask
      dsimp only
      obtain ⟨-, r2, r3⟩ := hrow k { s with typ := [], site := put s.site k m }
      split
      · exact ⟨by show find (setRow _ k m).site k = _; rw [r2, find_put, if_pos rfl], r3⟩
      · exact ⟨by rw [r2, find_put, if_pos rfl], r3⟩
    unfold setSiteAllMask
    dsimp only
    rw [h1.1, h1.2]
    simp only [bne_self_eq_false, List.isEmpty_nil, Bool.not_true, Bool.or_self, Bool.false_eq_true, if_false]
    exact (hrow k _).1
  refine ⟨?_, ?_⟩
  · unfold setPairMask
    by_cases h1 : i < 0 ∧ j < 0
    · rw [if_pos h1, if_pos h1]; exact hall
    rw [if_neg h1, if_neg h1]
    by_cases h2 : i < 0
    · rw [if_pos h2, if_pos h2]; exact hsite j
    rw [if_neg h2, if_neg h2]
    by_cases h3 : j < 0
    · rw [if_pos h3, if_pos h3]; exact hsite i
    rw [if_neg h3, if_neg h3]
    set d1 := dropSite s.site i m with hd1
    set d2 := dropSite d1.1 j m with hd2
    have hi : find d2.1 i = none ∨ find d2.1 i = some m := by
      rcases find_dropSite_or d1.1 j i m with h | h
      · exact Or.inl h
      · rw [hd2, h]; exact find_dropSite_self s.site i m
    have hj : find d2.1 j = none ∨ find d2.1 j = some m := find_dropSite_self d1.1 j m
    obtain ⟨n, hn⟩ : ∃ n, setOnePairMask s i j m =
        { (setPairMaskValue { s with typ := [], site := d2.1 } i j m).1 with typ := [], site := d2.1, clicks := n } := by
      unfold setOnePairMask
      dsimp only
      split
      · exact ⟨_, rfl⟩
      · exact ⟨_, rfl⟩
    rw [hn]
    unfold setOnePairMask
    dsimp only
    rw [dropSite_again _ i m hi]
    dsimp only
    rw [dropSite_again _ j m hj, setValue_again]
    simp only [List.isEmpty_nil, Bool.not_true, Bool.or_self, Bool.false_eq_true, if_false]
    rfl
  · unfold setTypeMask
    generalize canonAll a = a, canonAll b = b
    unfold setTypeMask'
    dsimp only
    by_cases h1 : tnorm a b = (allStr, allStr)
    · rw [if_pos h1, if_pos h1]; exact hall
    rw [if_neg h1, if_neg h1]
    generalize hx : (decide (a = allStr) || decide (b = allStr)) = x
    generalize hsk : (if a ≠ allStr then a else b) = sk
    set t2 := put (s.typ.filter fun e => !(x && eraseKey sk (tnorm a b) e.1)) (tnorm a b) m with ht2
    have hno : ∀ e ∈ t2, (x && eraseKey sk (tnorm a b) e.1) = false := by
      intro e he
      rw [ht2] at he
      unfold put at he
      rcases List.mem_cons.1 he with rfl | he
      · simp [eraseKey]
      · unfold erase at he
        have := List.mem_filter.1 (List.mem_filter.1 he).1
        have h2 : (!(x && eraseKey sk (tnorm a b) e.1)) = true := this.2
        rwa [Bool.not_eq_true'] at h2
    have hfil : t2.filter (fun e => !(x && eraseKey sk (tnorm a b) e.1)) = t2 := by
      rw [List.filter_eq_self]
      intro e he
      rw [hno e he]; rfl
    have hany : t2.any (fun e => x && eraseKey sk (tnorm a b) e.1 && (m != e.2)) = false := by
      rw [List.any_eq_false]
      intro e he
      rw [hno e he]; simp
    have hfind : find t2 (tnorm a b) = some m := by rw [ht2, find_put, if_pos rfl]
    have key : ∀ n, (if (t2.any (fun e => x && eraseKey sk (tnorm a b) e.1 && (m != e.2)) ||
        (find (t2.filter fun e => !(x && eraseKey sk (tnorm a b) e.1)) (tnorm a b) != some m)) = true then n + 1 else n) = n := by
      intro n
      rw [hany, hfil, hfind]
      simp
    have hc : ∀ (P : Prop) [Decidable P] (u v : State), (if P then u else v).clicks = if P then u.clicks else v.clicks := by
      intro P _ u v
      split <;> rfl
    split
    · rw [hc]
      exact key _
    · rw [hc]
      exact key _

end Verif.Mask
