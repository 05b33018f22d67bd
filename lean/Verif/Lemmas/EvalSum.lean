import Verif.Lemmas.Evaluator
import Mathlib.Algebra.BigOperators.Group.List.Lemmas
import Mathlib.Algebra.Module.Basic
import Mathlib.Tactic.Abel
import Mathlib.Data.List.Sort
/-! Closed forms of the fast-update loops and sums over traces. -/
namespace Verif.Eval

variable {B : Type}

/-- Blocks of the removal loop by position. -/
def removeBlocks (gen : Gen B) (full : Bool) (use : Nat → Nat → Bool) (pop anchors : List Nat) :
    List Nat → Nat → Nat → List (List (Contrib B))
  | _, 0, _ => []
  | [], _ + 1, _ => []
  | i0 :: rest, todo + 1, pos =>
    block (-1) full use i0
      (gen i0 (if full then (if pop.length ≤ pos then pop else anchors) else i0 :: rest))
      :: removeBlocks gen full use pop anchors rest todo (pos + 1)

theorem removeLoop_eq (gen : Gen B) (full : Bool) (use : Nat → Nat → Bool) (ncpu : Int)
    (pop anchors : List Nat) (suffix : List Nat) (todo pos : Nat) (n : Int) (sel : List Nat)
    (needs : Bool)
    (hinv : full = true → (needs = true ∧ sel = anchors) ∨
      (needs = false ∧ sel = pop ∧ pop.length ≤ pos)) :
    removeLoop gen full use ncpu pop suffix todo pos n sel needs
      = (n + (removeBlocks gen full use pop anchors suffix todo pos).length,
        (chop ncpu n (removeBlocks gen full use pop anchors suffix todo pos)).flatten) := by
  induction suffix generalizing todo pos n sel needs with
  | nil => cases todo <;> simp [removeLoop, removeBlocks, chop]
  | cons i0 rest ih =>
    cases todo with
    | zero => simp [removeLoop, removeBlocks, chop]
    | succ todo =>
      have e : ∀ k : Nat, n + 1 + (k : Int) = n + ((k : Int) + 1) := by intro k; ring
      simp only [removeLoop, removeBlocks, chop, List.length_cons, Nat.cast_add, Nat.cast_one]
      by_cases hs : skips n ncpu
      · simp only [hs, if_true]
        rw [ih]
        · rw [e]
        · intro hf
          rcases hinv hf with h | ⟨h1, h2, h3⟩
          · exact Or.inl h
          · exact Or.inr ⟨h1, h2, by omega⟩
      · simp only [hs, Bool.false_eq_true, if_false, innerLoop_nochop, List.flatten_cons]
        have hsel : (if (!full) = true then i0 :: rest
            else if (full && needs && decide (pop.length ≤ pos)) = true then pop else sel)
            = (if full = true then (if pop.length ≤ pos then pop else anchors) else i0 :: rest) := by
          cases full with
          | false => simp
          | true =>
            rcases hinv rfl with ⟨h1, h2⟩ | ⟨h1, h2, h3⟩
            · simp [h1, h2]
            · simp [h1, h2, h3]
        rw [hsel]
        rw [ih]
        · rw [e]
        · intro hf
          subst hf
          rcases hinv rfl with ⟨h1, h2⟩ | ⟨h1, h2, h3⟩
          · by_cases hp : pop.length ≤ pos
            · right; simp [hp]; omega
            · left; simp [hp, h1]
          · right; simp [h1, h3]; omega

/-- Blocks of the addition loop by position. -/
def addBlocks (gen : Gen B) (full : Bool) (use : Nat → Nat → Bool) (anchors add : List Nat) :
    List Nat → List Nat → List (List (Contrib B))
  | _, [] => []
  | pre, i0 :: rest =>
    block 1 full use i0
      (gen i0 (if full then (if anchors.length - add.length ≤ pre.length then anchors else add)
        else pre ++ [i0]))
      :: addBlocks gen full use anchors add (pre ++ [i0]) rest

theorem addLoop_eq (gen : Gen B) (full : Bool) (use : Nat → Nat → Bool) (ncpu : Int)
    (anchors add : List Nat) (pre suffix : List Nat) (n : Int) (sel : List Nat)
    (needs : Bool)
    (hinv : full = true → (needs = true ∧ sel = add) ∨
      (needs = false ∧ sel = anchors ∧ anchors.length - add.length ≤ pre.length)) :
    addLoop gen full use ncpu anchors add pre suffix n sel needs
      = (chop ncpu n (addBlocks gen full use anchors add pre suffix)).flatten := by
  induction suffix generalizing pre n sel needs with
  | nil => simp [addLoop, addBlocks, chop]
  | cons i0 rest ih =>
    simp only [addLoop, addBlocks, chop]
    by_cases hs : skips n ncpu
    · simp only [hs, if_true]
      rw [ih]
      intro hf
      rcases hinv hf with h | ⟨h1, h2, h3⟩
      · exact Or.inl h
      · exact Or.inr ⟨h1, h2, by simp; omega⟩
    · simp only [hs, Bool.false_eq_true, if_false, innerLoop_nochop, List.flatten_cons]
      have hsel : (if (!full) = true then pre ++ [i0]
          else if (full && needs && decide (anchors.length - add.length ≤ pre.length)) = true
            then anchors else sel)
          = (if full = true then (if anchors.length - add.length ≤ pre.length then anchors else add)
            else pre ++ [i0]) := by
        cases full with
        | false => simp
        | true =>
          rcases hinv rfl with ⟨h1, h2⟩ | ⟨h1, h2, h3⟩
          · simp [h1, h2]
          · simp [h1, h2, h3]
      rw [hsel]
      rw [ih]
      intro hf
      subst hf
      rcases hinv rfl with ⟨h1, h2⟩ | ⟨h1, h2, h3⟩
      · by_cases hp : anchors.length - add.length ≤ pre.length
        · right; simp [hp]; omega
        · left; simp [hp, h1]
      · right; simp [h1, h3]; omega

/-- Removal blocks of a fast update. -/
def removeAll (gen0 : Gen B) (full : Bool) (use : Nat → Nat → Bool) (cnt0 : Nat)
    (pop : List Nat) : List (List (Contrib B)) :=
  let anchors := if pop.isEmpty then pop else pop ++ complementaryIndices cnt0 pop
  removeBlocks gen0 full use pop anchors anchors (if full then anchors.length else pop.length) 0

theorem removeTrace_eq (gen0 : Gen B) (full : Bool) (use : Nat → Nat → Bool) (cnt0 : Nat)
    (pop : List Nat) (cpuindex ncpu : Int) :
    removeTrace gen0 full use cnt0 pop cpuindex ncpu
      = (cpuindex + (removeAll gen0 full use cnt0 pop).length,
        (chop ncpu cpuindex (removeAll gen0 full use cnt0 pop)).flatten) := by
  unfold removeTrace removeAll
  rw [removeLoop_eq]
  intro h; exact Or.inl ⟨h, rfl⟩

/-- Addition blocks of a fast update. -/
def addAll (gen1 : Gen B) (full : Bool) (use : Nat → Nat → Bool) (cnt1 : Nat)
    (add : List Nat) : List (List (Contrib B)) :=
  let unchanged := if add.isEmpty then [] else complementaryIndices cnt1 add
  let anchors := unchanged ++ add
  if full then addBlocks gen1 full use anchors add [] anchors
  else addBlocks gen1 full use anchors add unchanged add

theorem addTrace_eq (gen1 : Gen B) (full : Bool) (use : Nat → Nat → Bool) (cnt1 : Nat)
    (add : List Nat) (n ncpu : Int) :
    addTrace gen1 full use cnt1 add n ncpu
      = (chop ncpu n (addAll gen1 full use cnt1 add)).flatten := by
  unfold addTrace addAll
  cases full with
  | true => simp only [if_true]; rw [addLoop_eq]; intro h; exact Or.inl ⟨h, rfl⟩
  | false =>
    simp only [Bool.false_eq_true, if_false]; rw [addLoop_eq]
    intro h; simp at h

theorem chop_perm_flatten {α : Type} (m : Nat) (hm : 0 < m) (n : Int) (L : List (List α)) :
    ((List.range m).flatMap fun k : Nat => (chop (m : Int) (n + (k : Int)) L).flatten).Perm L.flatten := by
  have h := chop_partition m hm n L
  have h2 := h.flatten
  refine List.Perm.trans (List.Perm.of_eq ?_) h2
  rw [List.flatMap_def, List.flatMap_def, List.flatten_flatten, List.map_map]
  rfl

/-! ### complementary indices -/

theorem complLoop_spec (ks is : List Nat) (hk : ks.Pairwise (· < ·)) (hi : is.Pairwise (· < ·))
    (hsub : ∀ i ∈ is, i ∈ ks) : complLoop ks is = ks.filter (fun k => !decide (k ∈ is)) := by
  induction ks generalizing is with
  | nil => rfl
  | cons k ks ih =>
    rw [List.pairwise_cons] at hk
    cases is with
    | nil =>
      simp only [complLoop]
      rw [ih [] hk.2 List.Pairwise.nil (by simp)]
      simp
    | cons i is =>
      rw [List.pairwise_cons] at hi
      simp only [complLoop]
      split
      · rename_i hlt
        have hnot : k ∉ i :: is := by
          intro h
          rcases List.mem_cons.1 h with h | h
          · omega
          · have := hi.1 k h; omega
        rw [ih (i :: is) hk.2 (List.pairwise_cons.2 hi)]
        · simp only [List.filter_cons, hnot, decide_false, Bool.not_false, if_true]
        · intro x hx
          rcases List.mem_cons.1 (hsub x hx) with h | h
          · exact absurd (h ▸ hx) hnot
          · exact h
      · rename_i hge
        have hki : k = i := by
          rcases List.mem_cons.1 (hsub i (by simp)) with h | h
          · exact h.symm
          · have := hk.1 i h; omega
        subst hki
        rw [ih is hk.2 hi.2]
        · simp only [List.filter_cons, List.mem_cons, true_or, decide_true, Bool.not_true,
            Bool.false_eq_true, if_false]
          apply List.filter_congr
          intro x hx
          have := hk.1 x hx
          have hne : x ≠ k := by omega
          simp [hne]
        · intro x hx
          rcases List.mem_cons.1 (hsub x (by simp [hx])) with h | h
          · have := hi.1 x hx; omega
          · exact h

theorem compl_eq (sz : Nat) (is : List Nat) (hi : is.Pairwise (· < ·)) (hb : ∀ i ∈ is, i < sz) :
    complementaryIndices sz is = (List.range sz).filter (fun k => !decide (k ∈ is)) :=
  complLoop_spec _ _ List.pairwise_lt_range hi (fun i h => List.mem_range.2 (hb i h))

theorem compl_perm (sz : Nat) (is : List Nat) (hi : is.Pairwise (· < ·)) (hb : ∀ i ∈ is, i < sz) :
    (is ++ complementaryIndices sz is).Perm (List.range sz) := by
  rw [compl_eq sz is hi hb]
  have h1 : ((List.range sz).filter (fun k => decide (k ∈ is))).Perm is := by
    rw [List.perm_ext_iff_of_nodup (List.nodup_range.filter _) (hi.imp (by intro a b h; omega))]
    intro a
    simp only [List.mem_filter, List.mem_range, decide_eq_true_eq]
    exact ⟨fun h => h.2, fun h => ⟨hb a h, h⟩⟩
  have h2 := List.filter_append_perm (fun k => decide (k ∈ is)) (List.range sz)
  exact (h1.symm.append_right _).trans h2

/-! ### sums -/

variable {G : Type} [AddCommGroup G]

/-- Value added by a trace when one unscaled contribution of bond `b` between sites `i` and `j`
is `f i j b`. -/
def traceSum (f : Nat → Nat → B → G) (tr : List (Contrib B)) : G :=
  (tr.map fun c => c.scale • f c.i0 c.i1 c.bond).sum

theorem traceSum_nil (f : Nat → Nat → B → G) : traceSum f [] = 0 := rfl

theorem traceSum_append (f : Nat → Nat → B → G) (a b : List (Contrib B)) :
    traceSum f (a ++ b) = traceSum f a + traceSum f b := by simp [traceSum]

theorem traceSum_perm (f : Nat → Nat → B → G) {a b : List (Contrib B)} (h : a.Perm b) :
    traceSum f a = traceSum f b := (h.map _).sum_eq

theorem traceSum_flatten (f : Nat → Nat → B → G) (L : List (List (Contrib B))) :
    traceSum f L.flatten = (L.map (traceSum f)).sum := by
  induction L with
  | nil => rfl
  | cons a L ih => simp [traceSum_append, ih]

/-- Masked total contribution of the bonds from site `i` to site `j`. -/
def pairW (f : Nat → Nat → B → G) (c : Nat → Nat → List B) (use : Nat → Nat → Bool) (i j : Nat) : G :=
  if use i j then ((c i j).map (f i j)).sum else 0

theorem list_sum_smul (z : Int) (l : List G) : (l.map fun x => z • x).sum = z • l.sum := by
  induction l with
  | nil => simp
  | cons a l ih => simp [ih, smul_add]

theorem traceSum_block (f : Nat → Nat → B → G) (gen : Gen B) (c : Nat → Nat → List B)
    (hg : GenSpec gen c) (s : Int) (full : Bool) (use : Nat → Nat → Bool) (i0 : Nat)
    (sel : List Nat) :
    traceSum f (block s full use i0 (gen i0 sel))
      = (sel.map fun j => sumScale s full i0 j • pairW f c use i0 j).sum := by
  have hp : (block s full use i0 (gen i0 sel)).Perm
      (block s full use i0 (sel.flatMap fun j => (c i0 j).map fun b => (j, b))) :=
    ((hg i0 sel).filter _).map _
  rw [traceSum_perm f hp]
  induction sel with
  | nil => rfl
  | cons j sel ih =>
    have e : block s full use i0 ((j :: sel).flatMap fun j => (c i0 j).map fun b => (j, b))
        = block s full use i0 ((c i0 j).map fun b => (j, b)) ++
          block s full use i0 (sel.flatMap fun j => (c i0 j).map fun b => (j, b)) := by
      simp [block]
    rw [e, traceSum_append, ih (((hg i0 sel).filter _).map _), List.map_cons, List.sum_cons]
    congr 1
    unfold pairW
    by_cases hu : use i0 j
    · simp only [hu, if_true, block, List.filter_map, Function.comp_def, List.map_map, traceSum]
      have : (c i0 j).filter (fun _ => true) = c i0 j := by simp
      rw [this, ← list_sum_smul, List.map_map]; rfl
    · simp [hu, block, List.filter_map, Function.comp_def, traceSum]

/-- Double sum over a list of sites. -/
def dsum (W : Nat → Nat → G) (l₁ l₂ : List Nat) : G :=
  (l₁.map fun i => (l₂.map fun j => W i j).sum).sum

theorem dsum_nil (W : Nat → Nat → G) (l : List Nat) : dsum W [] l = 0 := rfl

theorem dsum_cons (W : Nat → Nat → G) (i : Nat) (l₁ l₂ : List Nat) :
    dsum W (i :: l₁) l₂ = (l₂.map fun j => W i j).sum + dsum W l₁ l₂ := by simp [dsum]

theorem dsum_append_left (W : Nat → Nat → G) (a b l : List Nat) :
    dsum W (a ++ b) l = dsum W a l + dsum W b l := by simp [dsum]

theorem dsum_append_right (W : Nat → Nat → G) (l a b : List Nat) :
    dsum W l (a ++ b) = dsum W l a + dsum W l b := by
  induction l with
  | nil => simp [dsum]
  | cons i l ih => simp only [dsum_cons, ih, List.map_append, List.sum_append]; abel

theorem dsum_perm (W : Nat → Nat → G) {a a' b b' : List Nat} (ha : a.Perm a') (hb : b.Perm b') :
    dsum W a b = dsum W a' b' := by
  have h1 : ∀ i, (b.map fun j => W i j).sum = (b'.map fun j => W i j).sum :=
    fun i => (hb.map _).sum_eq
  unfold dsum
  simp only [h1]
  exact (ha.map _).sum_eq

theorem dsum_comm (W : Nat → Nat → G) (hW : ∀ i j, W i j = W j i) (a b : List Nat) :
    dsum W a b = dsum W b a := by
  induction a with
  | nil => 
    induction b with
    | nil => rfl
    | cons j b ih => simp only [dsum_nil, dsum_cons] at ih ⊢; rw [← ih]; simp
  | cons i a ih =>
    rw [dsum_cons, ih]
    have : dsum W b (i :: a) = dsum W b [i] + dsum W b a := dsum_append_right W b [i] a
    rw [this]
    congr 1
    unfold dsum
    simp [hW i]

/-- The half sum of one anchor over a list that does not contain it. -/
theorem half_anchor (W : Nat → Nat → G) (s : Int) (i : Nat) (l : List Nat) (hi : i ∉ l) :
    (l.map fun j => sumScale s false i j • W i j).sum = (2 * s) • (l.map fun j => W i j).sum := by
  rw [← list_sum_smul, List.map_map]
  congr 1
  apply List.map_congr_left
  intro j hj
  have : i ≠ j := fun h => hi (h ▸ hj)
  simp [sumScale, this]

theorem dsum_cons_both (W : Nat → Nat → G) (hW : ∀ i j, W i j = W j i) (i : Nat) (l : List Nat) :
    dsum W (i :: l) (i :: l) = W i i + (2 : Int) • (l.map fun j => W i j).sum + dsum W l l := by
  rw [dsum_cons]
  have h1 : dsum W l (i :: l) = dsum W l [i] + dsum W l l := dsum_append_right W l [i] l
  have h2 : dsum W l [i] = (l.map fun j => W i j).sum := by
    rw [dsum_comm W hW]; simp [dsum]
  rw [h1, h2, List.map_cons, List.sum_cons, two_smul]
  abel

theorem dsum_snoc_both (W : Nat → Nat → G) (hW : ∀ i j, W i j = W j i) (i : Nat) (l : List Nat) :
    dsum W (l ++ [i]) (l ++ [i])
      = dsum W l l + ((2 : Int) • (l.map fun j => W i j).sum + W i i) := by
  have hp : (l ++ [i]).Perm (i :: l) := List.perm_append_singleton i l
  rw [dsum_perm W hp hp, dsum_cons_both W hW]
  abel

theorem smul_sum_eq (z : Int) (l : List Nat) (W : Nat → G) :
    (l.map fun j => z • W j).sum = z • (l.map W).sum := by
  rw [← list_sum_smul, List.map_map]; rfl

/-- Full-sum removal blocks. -/
theorem removeBlocks_full (f : Nat → Nat → B → G) (gen : Gen B) (c : Nat → Nat → List B)
    (hg : GenSpec gen c) (use : Nat → Nat → Bool) (pop U anchors : List Nat)
    (suffix : List Nat) (todo pos : Nat) (ht : todo = suffix.length)
    (hsuf : suffix = (pop ++ U).drop pos) :
    traceSum f (removeBlocks gen true use pop anchors suffix todo pos).flatten
      = - (dsum (pairW f c use) (pop.drop pos) anchors
        + dsum (pairW f c use) (U.drop (pos - pop.length)) pop) := by
  induction suffix generalizing todo pos with
  | nil =>
    subst ht
    have hlen : (pop ++ U).length ≤ pos := List.drop_eq_nil_iff.1 hsuf.symm
    rw [List.length_append] at hlen
    have h1 : pop.drop pos = [] := List.drop_eq_nil_of_le (by omega)
    have h2 : U.drop (pos - pop.length) = [] := List.drop_eq_nil_of_le (by omega)
    simp [removeBlocks, h1, h2, dsum_nil, traceSum_nil]
  | cons i0 rest ih =>
    subst ht
    have hrest : rest = (pop ++ U).drop (pos + 1) := by
      have := congrArg List.tail hsuf
      simpa [List.tail_drop] using this
    simp only [List.length_cons, removeBlocks, List.flatten_cons, traceSum_append, if_true]
    rw [ih rest.length (pos + 1) rfl hrest, traceSum_block f gen c hg]
    have hsc : ∀ j, sumScale (-1) true i0 j = -1 := by intro j; simp [sumScale]
    simp only [hsc, neg_smul, one_smul]
    have hneg : ∀ l : List Nat, (l.map fun j => -pairW f c use i0 j).sum
        = -((l.map fun j => pairW f c use i0 j).sum) := by
      intro l; induction l with
      | nil => simp
      | cons a l ih => simp only [List.map_cons, List.sum_cons, ih]; abel
    rw [hneg]
    by_cases hp : pop.length ≤ pos
    · have h1 : pop.drop pos = [] := List.drop_eq_nil_of_le hp
      have h1' : pop.drop (pos + 1) = [] := List.drop_eq_nil_of_le (by omega)
      have h2 : U.drop (pos - pop.length) = i0 :: U.drop (pos + 1 - pop.length) := by
        have : (pop ++ U).drop pos = U.drop (pos - pop.length) := by
          rw [List.drop_append, h1]; simp
        rw [← this, ← hsuf, hrest]
        congr 1
        rw [List.drop_append, h1']; simp
      simp only [hp, if_true, h1, h1', h2, dsum_cons, dsum_nil]
      abel
    · have hlt : pos < pop.length := by omega
      have h2 : U.drop (pos - pop.length) = U := by
        have : pos - pop.length = 0 := by omega
        simp [this]
      have h2' : U.drop (pos + 1 - pop.length) = U := by
        have : pos + 1 - pop.length = 0 := by omega
        simp [this]
      have h1 : pop.drop pos = i0 :: pop.drop (pos + 1) := by
        have e : (pop ++ U).drop pos = pop.drop pos ++ U := by
          rw [List.drop_append]; simp [h2]
        have e' : pop.drop pos = pop[pos] :: pop.drop (pos + 1) := List.drop_eq_getElem_cons hlt
        rw [e, e'] at hsuf
        simp only [List.cons_append, List.cons.injEq] at hsuf
        rw [e', hsuf.1]
      simp only [hp, if_false, h1, h2, h2', dsum_cons]
      abel

/-- Half-sum removal blocks. -/
theorem removeBlocks_half (f : Nat → Nat → B → G) (gen : Gen B) (c : Nat → Nat → List B)
    (hg : GenSpec gen c) (use : Nat → Nat → Bool)
    (hW : ∀ i j, pairW f c use i j = pairW f c use j i)
    (pop U anchors : List Nat) (P : List Nat) (hnd : (P ++ U).Nodup) (pos : Nat) :
    traceSum f (removeBlocks gen false use pop anchors (P ++ U) P.length pos).flatten
      = dsum (pairW f c use) U U - dsum (pairW f c use) (P ++ U) (P ++ U) := by
  induction P generalizing pos with
  | nil => simp [removeBlocks, traceSum_nil]
  | cons i P ih =>
    simp only [List.cons_append, List.length_cons, removeBlocks, Bool.false_eq_true, if_false,
      List.flatten_cons, traceSum_append]
    rw [List.cons_append, List.nodup_cons] at hnd
    rw [ih hnd.2, traceSum_block f gen c hg, dsum_cons_both _ hW, List.map_cons, List.sum_cons,
      half_anchor _ _ _ _ hnd.1]
    have : sumScale (-1) false i i = -1 := by simp [sumScale]
    rw [this, show ((2 : Int) * -1) = -2 from rfl, neg_smul, neg_smul, one_smul]
    abel

/-- Half-sum addition blocks. -/
theorem addBlocks_half (f : Nat → Nat → B → G) (gen : Gen B) (c : Nat → Nat → List B)
    (hg : GenSpec gen c) (use : Nat → Nat → Bool)
    (hW : ∀ i j, pairW f c use i j = pairW f c use j i)
    (anchors add : List Nat) (pre A : List Nat) (hnd : (pre ++ A).Nodup) :
    traceSum f (addBlocks gen false use anchors add pre A).flatten
      = dsum (pairW f c use) (pre ++ A) (pre ++ A) - dsum (pairW f c use) pre pre := by
  induction A generalizing pre with
  | nil => simp [addBlocks, traceSum_nil]
  | cons i A ih =>
    simp only [addBlocks, Bool.false_eq_true, if_false, List.flatten_cons, traceSum_append]
    have e : pre ++ i :: A = (pre ++ [i]) ++ A := by simp
    rw [ih (pre ++ [i]) (by rw [← e]; exact hnd), ← e, dsum_snoc_both _ hW,
      traceSum_block f gen c hg, List.map_append, List.sum_append]
    have hi : i ∉ pre := by
      rw [List.nodup_append] at hnd
      intro h; exact hnd.2.2 i h i (by simp) rfl
    rw [half_anchor _ _ _ _ hi]
    have : sumScale 1 false i i = 1 := by simp [sumScale]
    simp only [List.map_cons, List.map_nil, List.sum_cons, List.sum_nil, this, one_smul, add_zero,
      mul_one]
    abel

/-- Full-sum addition blocks. -/
theorem addBlocks_full (f : Nat → Nat → B → G) (gen : Gen B) (c : Nat → Nat → List B)
    (hg : GenSpec gen c) (use : Nat → Nat → Bool) (U add : List Nat)
    (pre suffix : List Nat) (hsplit : pre ++ suffix = U ++ add) :
    traceSum f (addBlocks gen true use (U ++ add) add pre suffix).flatten
      = dsum (pairW f c use) (U.drop pre.length) add
        + dsum (pairW f c use) (add.drop (pre.length - U.length)) (U ++ add) := by
  induction suffix generalizing pre with
  | nil =>
    have hlen : pre.length = U.length + add.length := by
      have := congrArg List.length hsplit; simpa using this
    have h1 : U.drop pre.length = [] := List.drop_eq_nil_of_le (by omega)
    have h2 : add.drop (pre.length - U.length) = [] := List.drop_eq_nil_of_le (by omega)
    simp [addBlocks, h1, h2, dsum_nil, traceSum_nil]
  | cons i0 rest ih =>
    simp only [addBlocks, if_true, List.flatten_cons, traceSum_append]
    have hsplit' : (pre ++ [i0]) ++ rest = U ++ add := by simpa using hsplit
    rw [ih (pre ++ [i0]) hsplit', traceSum_block f gen c hg]
    have hsc : ∀ j, sumScale 1 true i0 j = 1 := by intro j; simp [sumScale]
    simp only [hsc, one_smul, List.length_append, List.length_cons, List.length_nil]
    have hlen : (U.length + add.length - add.length ≤ pre.length) ↔ U.length ≤ pre.length := by omega
    have hdrop : i0 :: rest = (U ++ add).drop pre.length := by
      rw [← hsplit]; simp
    have hrest : rest = (U ++ add).drop (pre.length + 1) := by
      have := congrArg List.tail hdrop
      simpa [List.tail_drop] using this
    by_cases hp : U.length ≤ pre.length
    · have h1 : U.drop pre.length = [] := List.drop_eq_nil_of_le hp
      have h1' : U.drop (pre.length + 1) = [] := List.drop_eq_nil_of_le (by omega)
      have h2 : add.drop (pre.length - U.length) = i0 :: add.drop (pre.length + 1 - U.length) := by
        have : (U ++ add).drop pre.length = add.drop (pre.length - U.length) := by
          rw [List.drop_append, h1]; simp
        rw [← this, ← hdrop, hrest]
        congr 1
        rw [List.drop_append, h1']; simp
      simp only [hlen, hp, if_true, zero_add, h1, h1', h2, dsum_cons, dsum_nil]
    · have hlt : pre.length < U.length := by omega
      have h2 : add.drop (pre.length - U.length) = add := by
        have : pre.length - U.length = 0 := by omega
        simp [this]
      have h2' : add.drop (pre.length + 1 - U.length) = add := by
        have : pre.length + 1 - U.length = 0 := by omega
        simp [this]
      have h1 : U.drop pre.length = i0 :: U.drop (pre.length + 1) := by
        have e : (U ++ add).drop pre.length = U.drop pre.length ++ add := by
          rw [List.drop_append]; simp [h2]
        have e' : U.drop pre.length = U[pre.length] :: U.drop (pre.length + 1) :=
          List.drop_eq_getElem_cons hlt
        rw [e, e'] at hdrop
        simp only [List.cons_append, List.cons.injEq] at hdrop
        rw [e', hdrop.1]
      simp only [hlen, hp, if_false, zero_add, h1, h2, h2', dsum_cons]
      abel

/-- The serial BASIC trace adds up to the double sum over all ordered pairs. -/
theorem basic_sum (f : Nat → Nat → B → G) (gen : Gen B) (c : Nat → Nat → List B)
    (hg : GenSpec gen c) (full : Bool) (use : Nat → Nat → Bool)
    (hW : full = false → ∀ i j, pairW f c use i j = pairW f c use j i) (cnt : Nat) :
    traceSum f ((List.range cnt).flatMap fun i0 =>
        block 1 full use i0 (gen i0 (basicSel full cnt i0)))
      = dsum (pairW f c use) (List.range cnt) (List.range cnt) := by
  cases full with
  | true =>
    have : ∀ l : List Nat, traceSum f (l.flatMap fun i0 =>
        block 1 true use i0 (gen i0 (basicSel true cnt i0)))
      = dsum (pairW f c use) l (List.range cnt) := by
      intro l
      induction l with
      | nil => rfl
      | cons i l ih =>
        rw [List.flatMap_cons, traceSum_append, ih, traceSum_block f gen c hg, dsum_cons]
        congr 2
        apply List.map_congr_left
        intro j _; simp [sumScale]
    exact this _
  | false =>
    have hW' := hW rfl
    induction cnt with
    | zero => rfl
    | succ cnt ih =>
      have e : ∀ i0, basicSel false (cnt + 1) i0 = basicSel false cnt i0 := fun _ => rfl
      simp only [e]
      rw [List.range_succ, List.flatMap_append, traceSum_append, ih, dsum_snoc_both _ hW']
      congr 1
      have hsel : basicSel false cnt cnt = List.range cnt ++ [cnt] := by
        simp [basicSel, List.range_succ]
      simp only [List.flatMap_cons, List.flatMap_nil, List.append_nil]
      rw [traceSum_block f gen c hg, hsel, List.map_append, List.sum_append,
        half_anchor _ _ _ _ (by simp)]
      simp [sumScale]

end Verif.Eval
