import Verif.Model.Mask
import Verif.Lemmas.AssocMap
/-! Helper lemmas about the mask model. -/
namespace Verif.Mask
open Verif.AssocMap

theorem eq_of_ne_not {v m : Bool} (h : some v ≠ some (!m)) : v = m := by
  cases v <;> cases m <;> simp_all

theorem norm_eq_iff (a b c d : Int) :
    norm a b = norm c d ↔ (a = c ∧ b = d) ∨ (a = d ∧ b = c) := by
  unfold norm; split <;> split <;> simp only [Prod.mk.injEq] <;> omega

theorem norm_comm (a b : Int) : norm a b = norm b a := by
  rw [norm_eq_iff]; omega

theorem tnorm_eq_iff (a b c d : String) :
    tnorm a b = tnorm c d ↔ (a = c ∧ b = d) ∨ (a = d ∧ b = c) := by
  unfold tnorm
  split <;> split <;> simp only [Prod.mk.injEq]
  · constructor
    · rintro ⟨h1, h2⟩; exact Or.inl ⟨h2, h1⟩
    · rintro (⟨h1, h2⟩ | ⟨h1, h2⟩)
      · exact ⟨h2, h1⟩
      · subst h1 h2; rename_i h h'; exact absurd (lt_trans h h') (lt_irrefl _)
  · constructor
    · rintro ⟨h1, h2⟩; exact Or.inr ⟨h2, h1⟩
    · rintro (⟨h1, h2⟩ | ⟨h1, h2⟩)
      · subst h1 h2; contradiction
      · exact ⟨h2, h1⟩
  · constructor
    · rintro ⟨h1, h2⟩; exact Or.inr ⟨h1, h2⟩
    · rintro (⟨h1, h2⟩ | ⟨h1, h2⟩)
      · subst h1 h2; contradiction
      · exact ⟨h1, h2⟩
  · constructor
    · rintro ⟨h1, h2⟩; exact Or.inl ⟨h1, h2⟩
    · rintro (⟨h1, h2⟩ | ⟨h1, h2⟩)
      · exact ⟨h1, h2⟩
      · subst h1 h2; rename_i h h'
        have : a = b := le_antisymm (not_lt.1 h) (not_lt.1 h')
        subst this; exact ⟨rfl, rfl⟩

theorem tnorm_comm (a b : String) : tnorm a b = tnorm b a := by
  rw [tnorm_eq_iff]; exact Or.inr ⟨rfl, rfl⟩

theorem tnorm_cases (a b : String) : tnorm a b = (a, b) ∨ tnorm a b = (b, a) := by
  unfold tnorm; split <;> simp

theorem tnorm_tnorm (a b : String) : tnorm (tnorm a b).1 (tnorm a b).2 = tnorm a b := by
  rcases tnorm_cases a b with h | h
  · rw [h]; exact h
  · rw [h]; simp only; rw [tnorm_comm]; exact h

theorem getPairMask_comm (s : State) (a b : Int) : getPairMask s a b = getPairMask s b a := by
  unfold getPairMask; rw [norm_comm]

theorem get_setValue (s : State) (i j a b : Int) (m : Bool) :
    getPairMask (setPairMaskValue s i j m).1 a b
      = if norm a b = norm i j then m else getPairMask s a b := by
  unfold getPairMask setPairMaskValue
  simp only
  by_cases hm : m = s.dflt
  · subst hm
    simp only [beq_self_eq_true, if_true, mem_setErase]
    by_cases h : norm a b = norm i j <;> simp [h]
  · have : (m == s.dflt) = false := by simpa using hm
    have hm' : m = !s.dflt := by cases m <;> cases hd : s.dflt <;> simp_all
    simp only [this, Bool.false_eq_true, if_false, mem_setInsert]
    by_cases h : norm a b = norm i j
    · simp [h, hm']
    · simp [h]

/-- `t` differs from `s` at most in the exception set. -/
def SameRest (s t : State) : Prop :=
  t.dflt = s.dflt ∧ t.site = s.site ∧ t.typ = s.typ ∧ t.types = s.types ∧ t.clicks = s.clicks

theorem SameRest.refl (s : State) : SameRest s s := ⟨rfl, rfl, rfl, rfl, rfl⟩
theorem SameRest.trans {s t u : State} (h : SameRest s t) (h' : SameRest t u) : SameRest s u := by
  obtain ⟨a, b, c, d, e⟩ := h; obtain ⟨a', b', c', d', e'⟩ := h'
  exact ⟨a'.trans a, b'.trans b, c'.trans c, d'.trans d, e'.trans e⟩

theorem sameRest_setValue (s : State) (i j : Int) (m : Bool) :
    SameRest s (setPairMaskValue s i j m).1 := ⟨rfl, rfl, rfl, rfl, rfl⟩

/-- Fold of `setPairMaskValue` with one mask value. -/
theorem fold_setValue {α : Type} (f : α → Int × Int) (m : Bool) (L : List α) : ∀ s : State,
    SameRest s (L.foldl (fun s x => (setPairMaskValue s (f x).1 (f x).2 m).1) s) ∧
    ∀ a b, getPairMask (L.foldl (fun s x => (setPairMaskValue s (f x).1 (f x).2 m).1) s) a b
      = if ∃ x ∈ L, norm a b = norm (f x).1 (f x).2 then m else getPairMask s a b := by
  induction L with
  | nil => intro s; exact ⟨SameRest.refl s, by simp⟩
  | cons x L ih =>
    intro s
    obtain ⟨h1, h2⟩ := ih (setPairMaskValue s (f x).1 (f x).2 m).1
    refine ⟨(sameRest_setValue s _ _ m).trans h1, ?_⟩
    intro a b
    rw [List.foldl_cons, h2, get_setValue]
    by_cases hL : ∃ x ∈ L, norm a b = norm (f x).1 (f x).2
    · have : ∃ y ∈ x :: L, norm a b = norm (f y).1 (f y).2 := by
        obtain ⟨y, hy, h⟩ := hL; exact ⟨y, List.mem_cons_of_mem _ hy, h⟩
      simp [hL]
    · by_cases hx : norm a b = norm (f x).1 (f x).2
      · simp [hx]
      · simp [hL, hx]

theorem setRow_spec (s : State) (k : Int) (m : Bool) :
    SameRest s (setRow s k m) ∧
    ∀ a b, getPairMask (setRow s k m) a b
      = if (a = k ∧ 0 ≤ b ∧ b < s.types.length) ∨ (b = k ∧ 0 ≤ a ∧ a < s.types.length) then m
        else getPairMask s a b := by
  obtain ⟨h1, h2⟩ := fold_setValue (fun l : Nat => (k, (l : Int))) m (List.range s.types.length) s
  refine ⟨h1, ?_⟩
  intro a b
  have := h2 a b
  unfold setRow
  rw [this]
  congr 1
  simp only [List.mem_range, norm_eq_iff, eq_iff_iff]
  constructor
  · rintro ⟨x, hx, h⟩; omega
  · rintro (⟨h1, h2, h3⟩ | ⟨h1, h2, h3⟩)
    · exact ⟨b.toNat, by omega, by omega⟩
    · exact ⟨a.toNat, by omega, by omega⟩

/-- `∃` form of the fold over site-all masks: the last matching entry decides. -/
theorem fold_rows (L : List (Int × Bool)) : ∀ s : State,
    SameRest s (L.foldl (fun s e => setRow s e.1 e.2) s) ∧
    ∀ a b : Int, 0 ≤ a → a < s.types.length → 0 ≤ b → b < s.types.length →
      (∃ e ∈ L, (a = e.1 ∨ b = e.1) ∧
        getPairMask (L.foldl (fun s e => setRow s e.1 e.2) s) a b = e.2) ∨
      ((∀ e ∈ L, ¬ (a = e.1 ∨ b = e.1)) ∧
        getPairMask (L.foldl (fun s e => setRow s e.1 e.2) s) a b = getPairMask s a b) := by
  induction L with
  | nil => intro s; exact ⟨SameRest.refl s, fun a b _ _ _ _ => Or.inr ⟨by simp, rfl⟩⟩
  | cons x L ih =>
    intro s
    obtain ⟨r1, g1⟩ := setRow_spec s x.1 x.2
    obtain ⟨h1, h2⟩ := ih (setRow s x.1 x.2)
    refine ⟨r1.trans h1, ?_⟩
    intro a b ha ha' hb hb'
    have hl : (setRow s x.1 x.2).types.length = s.types.length := by rw [r1.2.2.2.1]
    rcases h2 a b ha (by rw [hl]; exact ha') hb (by rw [hl]; exact hb') with ⟨e, he, hc, hv⟩ | ⟨hn, hv⟩
    · exact Or.inl ⟨e, List.mem_cons_of_mem _ he, hc, hv⟩
    · rw [g1] at hv
      by_cases hx : a = x.1 ∨ b = x.1
      · refine Or.inl ⟨x, by simp, hx, ?_⟩
        rw [List.foldl_cons, hv, if_pos]; omega
      · refine Or.inr ⟨?_, ?_⟩
        · intro e he
          rcases List.mem_cons.1 he with rfl | he
          · exact hx
          · exact hn e he
        · rw [List.foldl_cons, hv, if_neg]; omega

/-- A fold over site-all masks does not depend on entries at all for pairs not involving them;
general (unbounded index) version. -/
theorem fold_rows_frame (L : List (Int × Bool)) : ∀ s : State, ∀ a b : Int,
    (∀ e ∈ L, ¬ (a = e.1 ∨ b = e.1)) →
      getPairMask (L.foldl (fun s e => setRow s e.1 e.2) s) a b = getPairMask s a b := by
  induction L with
  | nil => intro s a b _; rfl
  | cons x L ih =>
    intro s a b h
    rw [List.foldl_cons, ih _ a b (fun e he => h e (List.mem_cons_of_mem _ he)),
      (setRow_spec s x.1 x.2).2, if_neg]
    have := h x (by simp)
    omega

/-- `x` (an atom type) is matched by the mask symbol `t`. -/
def Matches (t x : String) : Prop := t = allStr ∨ t = x

/-- The type key `tp` applies to a pair of atoms of types `x`, `y`. -/
def Covers (tp : TKey) (x y : String) : Prop :=
  (Matches tp.1 x ∧ Matches tp.2 y) ∨ (Matches tp.1 y ∧ Matches tp.2 x)

instance (t x : String) : Decidable (Matches t x) := by unfold Matches; infer_instance
instance (tp : TKey) (x y : String) : Decidable (Covers tp x y) := by unfold Covers; infer_instance

theorem mem_siteIndices (types : List String) (t : String) (i : Nat) :
    i ∈ siteIndices types t ↔ ∃ x, types[i]? = some x ∧ Matches t x := by
  simp only [siteIndices, List.mem_filter, List.mem_range, Bool.or_eq_true, decide_eq_true_eq,
    Matches]
  constructor
  · rintro ⟨h1, h2 | h2⟩
    · exact ⟨types[i], by simp [h1], Or.inl h2⟩
    · exact ⟨t, h2, Or.inr rfl⟩
  · rintro ⟨x, hx, h⟩
    have hi : i < types.length := (List.getElem?_eq_some_iff.1 hx).1
    refine ⟨hi, ?_⟩
    rcases h with h | h
    · exact Or.inl h
    · subst h; exact Or.inr hx

theorem mem_halfPairs (L : List Nat) (i j : Nat) :
    ((i, j) ∈ halfPairs L ∨ (j, i) ∈ halfPairs L) ↔ i ∈ L ∧ j ∈ L := by
  induction L with
  | nil => simp [halfPairs]
  | cons x L ih =>
    simp only [halfPairs, List.mem_append, List.mem_map, Prod.mk.injEq]
    constructor
    · intro h
      have : ((∃ a ∈ x :: L, x = i ∧ a = j) ∨ (∃ a ∈ x :: L, x = j ∧ a = i)) ∨ (i ∈ L ∧ j ∈ L) := by
        rw [← ih]
        rcases h with (h | h) | (h | h)
        · exact Or.inl (Or.inl h)
        · exact Or.inr (Or.inl h)
        · exact Or.inl (Or.inr h)
        · exact Or.inr (Or.inr h)
      rcases this with (⟨a, h1, rfl, rfl⟩ | ⟨a, h1, rfl, rfl⟩) | ⟨h1, h2⟩
      · exact ⟨by simp, h1⟩
      · exact ⟨h1, by simp⟩
      · exact ⟨List.mem_cons_of_mem _ h1, List.mem_cons_of_mem _ h2⟩
    · rintro ⟨h1, h2⟩
      rcases List.mem_cons.1 h1 with e1 | e1
      · exact Or.inl (Or.inl ⟨j, h2, e1.symm, rfl⟩)
      · rcases List.mem_cons.1 h2 with e2 | e2
        · exact Or.inr (Or.inl ⟨i, h1, e2.symm, rfl⟩)
        · rcases ih.2 ⟨e1, e2⟩ with h | h
          · exact Or.inl (Or.inr h)
          · exact Or.inr (Or.inr h)

theorem applyTypePair_spec (s : State) (tp : TKey) :
    SameRest s (applyTypePair s tp) ∧
    ∀ (i j : Nat) (x y : String), s.types[i]? = some x → s.types[j]? = some y →
      getPairMask (applyTypePair s tp) i j
        = if Covers tp x y then (find s.typ tp).getD s.dflt else getPairMask s i j := by
  unfold applyTypePair
  obtain ⟨h1, h2⟩ := fold_setValue (fun p : Nat × Nat => ((p.1 : Int), (p.2 : Int)))
    ((find s.typ tp).getD s.dflt) (typePairs s.types tp) s
  refine ⟨h1, ?_⟩
  intro i j x y hx hy
  have := h2 i j
  simp only at this ⊢
  rw [this]
  congr 1
  rw [eq_iff_iff]
  set pairs := typePairs s.types tp with hp
  have hmem : (∃ p ∈ pairs, norm (i : Int) j = norm (p.1 : Int) p.2) ↔
      ((i, j) ∈ pairs ∨ (j, i) ∈ pairs) := by
    constructor
    · rintro ⟨⟨p, q⟩, hpq, h⟩
      rw [norm_eq_iff] at h
      rcases h with ⟨h1, h2⟩ | ⟨h1, h2⟩
      · have e1 : i = p := by exact_mod_cast h1
        have e2 : j = q := by exact_mod_cast h2
        subst e1 e2; exact Or.inl hpq
      · have e1 : i = q := by exact_mod_cast h1
        have e2 : j = p := by exact_mod_cast h2
        subst e1 e2; exact Or.inr hpq
    · rintro (h | h)
      · exact ⟨_, h, rfl⟩
      · exact ⟨_, h, norm_comm _ _⟩
  rw [hmem]
  have hI : ∀ (k : Nat) (z t : String), s.types[k]? = some z →
      (k ∈ siteIndices s.types t ↔ Matches t z) := by
    intro k z t hz
    rw [mem_siteIndices]
    constructor
    · rintro ⟨w, hw, h⟩; rw [hz] at hw; cases hw; exact h
    · intro h; exact ⟨z, hz, h⟩
  by_cases he : tp.1 = tp.2
  · unfold typePairs at hp; simp only [if_pos he] at hp; rw [hp, mem_halfPairs, hI i x _ hx, hI j y _ hy]
    unfold Covers; rw [he]; tauto
  · unfold typePairs at hp; simp only [if_neg he] at hp; rw [hp]
    simp only [List.mem_flatMap, List.mem_map, Prod.mk.injEq]
    unfold Covers
    constructor
    · rintro (⟨a, ha, b, hb, rfl, rfl⟩ | ⟨a, ha, b, hb, rfl, rfl⟩)
      · exact Or.inl ⟨(hI _ x _ hx).1 ha, (hI _ y _ hy).1 hb⟩
      · exact Or.inr ⟨(hI _ y _ hy).1 ha, (hI _ x _ hx).1 hb⟩
    · rintro (⟨h1, h2⟩ | ⟨h1, h2⟩)
      · exact Or.inl ⟨i, (hI _ x _ hx).2 h1, j, (hI _ y _ hy).2 h2, rfl, rfl⟩
      · exact Or.inr ⟨j, (hI _ y _ hy).2 h1, i, (hI _ x _ hx).2 h2, rfl, rfl⟩

theorem fold_applyTypePair (L : List TKey) : ∀ s : State,
    SameRest s (L.foldl applyTypePair s) ∧
    ∀ (i j : Nat) (x y : String), s.types[i]? = some x → s.types[j]? = some y →
      (∃ k ∈ L, Covers k x y ∧
        getPairMask (L.foldl applyTypePair s) i j = (find s.typ k).getD s.dflt) ∨
      ((∀ k ∈ L, ¬ Covers k x y) ∧
        getPairMask (L.foldl applyTypePair s) i j = getPairMask s i j) := by
  induction L with
  | nil => intro s; exact ⟨SameRest.refl s, fun i j x y _ _ => Or.inr ⟨by simp, rfl⟩⟩
  | cons tp L ih =>
    intro s
    obtain ⟨r1, g1⟩ := applyTypePair_spec s tp
    obtain ⟨h1, h2⟩ := ih (applyTypePair s tp)
    refine ⟨r1.trans h1, ?_⟩
    intro i j x y hx hy
    rcases h2 i j x y (by rw [r1.2.2.2.1]; exact hx) (by rw [r1.2.2.2.1]; exact hy) with
      ⟨k, hk, hc, hv⟩ | ⟨hn, hv⟩
    · refine Or.inl ⟨k, List.mem_cons_of_mem _ hk, hc, ?_⟩
      rw [List.foldl_cons, hv, r1.2.2.1, r1.1]
    · rw [g1 i j x y hx hy] at hv
      by_cases hc : Covers tp x y
      · refine Or.inl ⟨tp, by simp, hc, ?_⟩
        rw [List.foldl_cons, hv, if_pos hc]
      · refine Or.inr ⟨?_, ?_⟩
        · intro k hk
          rcases List.mem_cons.1 hk with rfl | hk
          · exact hc
          · exact hn k hk
        · rw [List.foldl_cons, hv, if_neg hc]

theorem orderedPairs_eq (tord : List (TKey × Bool)) :
    orderedPairs tord = (keys (tord.filter (fun e => hasAll e.1))).reverse
      ++ keys (tord.filter (fun e => !hasAll e.1)) := by
  have gen : ∀ (L : List (TKey × Bool)) (acc : List TKey),
      L.foldl (fun acc e => if hasAll e.1 then e.1 :: acc else acc ++ [e.1]) acc
        = (keys (L.filter (fun e => hasAll e.1))).reverse ++ acc
          ++ keys (L.filter (fun e => !hasAll e.1)) := by
    intro L
    induction L with
    | nil => intro acc; simp [keys]
    | cons e L ih =>
      intro acc
      rw [List.foldl_cons, ih]
      by_cases h : hasAll e.1
      · simp [h, keys]
      · simp [h, keys]
  have := gen tord []
  simpa [orderedPairs] using this

/-- Well-formed mask containers. -/
structure WF (s : State) : Prop where
  tnodup : (keys s.typ).Nodup
  tnormed : ∀ k ∈ keys s.typ, tnorm k.1 k.2 = k
  tnotall : ∀ k ∈ keys s.typ, k ≠ (allStr, allStr)
  snodup : (keys s.site).Nodup
  excl : s.site = [] ∨ s.typ = []

theorem keys_map_val {κ β γ : Type} (m : List (κ × β)) (f : β → γ) :
    keys (m.map (fun e => (e.1, f e.2))) = keys m := by simp [keys]

theorem mem_keys_put {κ β : Type} [DecidableEq κ] {m : List (κ × β)} {k k' : κ} {v : β}
    (h : k' ∈ keys (put m k v)) : k' = k ∨ k' ∈ keys m := by
  simp only [put, keys, List.map_cons, List.mem_cons] at h
  rcases h with h | h
  · exact Or.inl h
  · exact Or.inr ((keys_erase_sublist m k).subset h)

/-- Fields other than the exception set after `updateMaskData`. -/
theorem sameRest_update (sord : List (Int × Bool)) (tord : List (TKey × Bool)) (s : State) :
    SameRest s (updateMaskData sord tord s) := by
  unfold updateMaskData
  split
  · exact (fold_rows sord s).1
  · have h0 : SameRest s { s with inv := [] } := ⟨rfl, rfl, rfl, rfl, rfl⟩
    exact h0.trans (fold_applyTypePair _ _).1

theorem WF.of_fields {s t : State} (h : WF s) (h1 : t.typ = s.typ) (h2 : t.site = s.site) : WF t := by
  obtain ⟨a, b, c, d, e⟩ := h
  exact ⟨by rwa [h1], by rwa [h1], by rwa [h1], by rwa [h2], by rwa [h1, h2]⟩

theorem click_typ (s : State) : s.click.typ = s.typ := rfl
theorem click_site (s : State) : s.click.site = s.site := rfl

end Verif.Mask
