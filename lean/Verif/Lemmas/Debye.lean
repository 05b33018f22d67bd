import Verif.Model.Debye
import Verif.Lemmas.PDFGrid
import Verif.Props.Overlap
/-!
Lemmas for the Debye model: loops over Q steps, the cache of scattering factors.
-/
namespace Verif.Debye
open Verif.PDFGrid Verif.Eval

theorem intRange_cons {a b : ℤ} (h : a < b) : intRange a b = a :: intRange (a + 1) b := by
  unfold intRange
  obtain ⟨m, hm⟩ : ∃ m : Nat, (b - a).toNat = m + 1 := ⟨(b - a).toNat - 1, by omega⟩
  have h2 : (b - (a + 1)).toNat = m := by omega
  rw [hm, h2, List.range_succ_eq_map, List.map_cons, List.map_map]
  congr 1
  · simp
  · apply List.map_congr_left
    intro x _
    simp only [Function.comp, Nat.succ_eq_add_one]
    push_cast; ring

theorem qLoop_length (p : QPar) (b : Bond) (s : ℤ → ℝ) (l : List ℤ) (v : List ℝ) :
    (qLoop p b s l v).length = v.length := by
  induction l generalizing v with
  | nil => rfl
  | cons kq ks ih =>
    unfold qLoop
    split
    · rfl
    · rw [ih, List.length_modify]

theorem getD_modify (v : List ℝ) (i k : Nat) (x : ℝ) (hk : k < v.length) :
    (v.modify i (· + x)).getD k 0 = v.getD k 0 + if i = k then x else 0 := by
  rw [List.getD_eq_getElem?_getD, List.getD_eq_getElem?_getD, List.getElem?_modify,
    List.getElem?_eq_getElem hk]
  by_cases h : i = k <;> simp [h]

open Classical in
/-- What the Q loop adds at step `k`: the term, unless the loop was left at or before `k`. -/
theorem qLoop_get (p : QPar) (b : Bond) (s : ℤ → ℝ) (m : Nat) :
    ∀ (a : ℤ) (v : List ℝ) (k : Nat), 0 ≤ a → k < v.length →
      (qLoop p b s (intRange a (a + m)) v).getD k 0 = v.getD k 0 +
        if a ≤ (k : ℤ) ∧ (k : ℤ) < a + m ∧ ∀ j : ℤ, a ≤ j → j ≤ (k : ℤ) → p.prec < |s j| then
          s k * Real.sin ((k : ℝ) * p.qstep * b.dist) else 0 := by
  induction m with
  | zero =>
    intro a v k _ _
    rw [intRange_empty (by simp), if_neg (by omega), add_zero]; rfl
  | succ m ih =>
    intro a v k ha hk
    rw [intRange_cons (by omega)]
    unfold qLoop
    by_cases hb : |0 - s a| ≤ p.prec
    · rw [if_pos hb, if_neg, add_zero]
      rintro ⟨h1, _, h3⟩
      have := h3 a (le_refl _) h1
      rw [zero_sub, abs_neg] at hb
      exact absurd hb (not_le.2 this)
    · rw [if_neg hb]
      have e : a + ((m + 1 : Nat) : ℤ) = (a + 1) + (m : ℤ) := by push_cast; ring
      rw [e, ih (a + 1) _ k (by omega) (by rw [List.length_modify]; exact hk), getD_modify _ _ _ _ hk, add_assoc]
      congr 1
      rw [zero_sub, abs_neg, not_le] at hb
      by_cases hka : a = (k : ℤ)
      · have h1 : a.toNat = k := by omega
        rw [if_pos h1, if_neg (by omega), add_zero, if_pos]
        · rw [hka]; push_cast; rfl
        · refine ⟨by omega, by omega, ?_⟩
          intro j hj hjk
          have : j = a := by omega
          rw [this]; exact hb
      · rw [if_neg (by omega), zero_add]
        apply if_congr _ rfl rfl
        constructor
        · rintro ⟨h1, h2, h3⟩
          refine ⟨by omega, by omega, ?_⟩
          intro j hj hjk
          by_cases hja : j = a
          · rw [hja]; exact hb
          · exact h3 j (by omega) hjk
        · rintro ⟨h1, h2, h3⟩
          exact ⟨by omega, by omega, fun j hj hjk => h3 j (by omega) hjk⟩

/-- The set loop over Q steps. -/
theorem setLoop_get (g : ℤ → ℝ) (m : Nat) : ∀ (a : ℤ) (v : List ℝ) (k : Nat), 0 ≤ a → k < v.length →
    ((intRange a (a + m)).foldl (fun (v : List ℝ) (kq : ℤ) => v.set kq.toNat (g kq)) v)[k]? =
      some (if a ≤ (k : ℤ) ∧ (k : ℤ) < a + m then g k else v.getD k 0) := by
  induction m with
  | zero =>
    intro a v k _ hk
    rw [intRange_empty (by simp), if_neg (by omega)]
    simp [List.getElem?_eq_getElem hk]
  | succ m ih =>
    intro a v k ha hk
    have e : a + ((m + 1 : Nat) : ℤ) = (a + 1) + (m : ℤ) := by push_cast; ring
    rw [intRange_cons (by omega), List.foldl_cons, e, ih (a + 1) _ k (by omega) (by simpa using hk)]
    congr 1
    by_cases hka : a = (k : ℤ)
    · rw [if_neg (by omega), if_pos (by omega)]
      have h1 : a.toNat = k := by omega
      rw [h1, List.getD_eq_getElem?_getD, List.getElem?_set_self hk, hka]; rfl
    · by_cases h2 : a + 1 ≤ (k : ℤ) ∧ (k : ℤ) < a + 1 + m
      · rw [if_pos h2, if_pos (by omega)]
      · rw [if_neg h2, if_neg (by omega), List.getD_eq_getElem?_getD, List.getElem?_set_ne (by omega),
          List.getD_eq_getElem?_getD]

theorem setLoop_length (g : ℤ → ℝ) (l : List ℤ) (v : List ℝ) :
    (l.foldl (fun (v : List ℝ) (kq : ℤ) => v.set kq.toNat (g kq)) v).length = v.length := by
  induction l generalizing v with
  | nil => rfl
  | cons a l ih => rw [List.foldl_cons, ih, List.length_set]

theorem intRange_add (a b : ℤ) : intRange a b = intRange a (a + ((b - a).toNat : ℤ)) := by
  by_cases h : a ≤ b
  · congr 1; omega
  · rw [intRange_empty (by omega), intRange_empty (by omega)]

theorem sfArray_get (p : QPar) (hlo : 0 ≤ p.lo) (sf : ℝ → ℝ) (k : Nat) (hk : (k : ℤ) < p.hi) :
    (sfArray p sf)[k]? = some (if p.lo ≤ (k : ℤ) then sf (p.qstep * (k : ℝ)) else 0) := by
  unfold sfArray
  rw [intRange_add, setLoop_get (fun kq => sf (p.qstep * (kq : ℝ))) _ _ _ _ hlo (by simp; omega)]
  congr 1
  by_cases h : p.lo ≤ (k : ℤ)
  · rw [if_pos (by omega), if_pos h]; push_cast; rfl
  · rw [if_neg (by omega), if_neg h]
    simp [List.getD_eq_getElem?_getD, hk]

theorem sfArray_length (p : QPar) (sf : ℝ → ℝ) : (sfArray p sf).length = p.hi.toNat := by
  unfold sfArray
  rw [setLoop_length (fun kq => sf (p.qstep * (kq : ℝ)))]; simp

/-- Index of the first site of type `t`. -/
def firstOf (sites : List Site) (t : String) : Nat := sites.findIdx fun s => s.typ == t

theorem firstOf_append_mem (l r : List Site) (t : String) (h : ∃ s ∈ l, s.typ = t) :
    firstOf (l ++ r) t = firstOf l t := by
  unfold firstOf
  rw [List.findIdx_append, if_pos]
  rw [List.findIdx_lt_length]
  obtain ⟨s, hs, ht⟩ := h
  exact ⟨s, hs, by simpa using ht⟩

theorem firstOf_append_new (l : List Site) (s : Site) (h : ∀ x ∈ l, x.typ ≠ s.typ) :
    firstOf (l ++ [s]) s.typ = l.length := by
  unfold firstOf
  rw [List.findIdx_append, if_neg]
  · simp
  · rw [List.findIdx_lt_length]
    rintro ⟨x, hx, ht⟩
    exact h x hx (by simpa using ht)

/-- What the cache holds after the sites `done`. -/
structure CacheInv (p : QPar) (sfSite : Nat → ℝ → ℝ) (done : List Site) (m : List (String × Nat))
    (c : Cache) : Prop where
  len : m.length = c.sftype.length
  sites : c.typeofsite.length = done.length
  vals : ∀ t k, AssocMap.find m t = some k →
    c.sftype[k]? = some (sfArray p (sfSite (firstOf done t))) ∧ ∃ s ∈ done, s.typ = t
  typ : ∀ (j : Nat) (s : Site), done[j]? = some s → ∃ k, c.typeofsite[j]? = some k ∧ AssocMap.find m s.typ = some k

theorem cacheInv_none {p : QPar} {sfSite : Nat → ℝ → ℝ} {done : List Site} {m : List (String × Nat)}
    {c : Cache} (h : CacheInv p sfSite done m c) (t : String) (hn : AssocMap.find m t = none) :
    ∀ x ∈ done, x.typ ≠ t := by
  intro x hx hxt
  obtain ⟨j, hj⟩ := List.getElem?_of_mem hx
  obtain ⟨k, _, hk⟩ := h.typ j x hj
  rw [hxt, hn] at hk
  exact absurd hk (by simp)

theorem cacheLoop_inv (p : QPar) (sfSite : Nat → ℝ → ℝ) (todo : List Site) :
    ∀ (done : List Site) (m : List (String × Nat)) (c : Cache), CacheInv p sfSite done m c →
      ∃ m', CacheInv p sfSite (done ++ todo) m' (cacheLoop p sfSite todo done.length m c) := by
  induction todo with
  | nil => intro done m c h; exact ⟨m, by simpa [cacheLoop] using h⟩
  | cons s ss ih =>
    intro done m c h
    unfold cacheLoop
    have e : done ++ s :: ss = (done ++ [s]) ++ ss := by simp
    have el : done.length + 1 = (done ++ [s]).length := by simp
    rw [e, el]
    apply ih
    cases hf : AssocMap.find m s.typ with
    | some k =>
      simp only [hf, Option.getD_some]
      obtain ⟨hv, hm⟩ := h.vals _ _ hf
      have hlt : k < c.sftype.length := by
        by_contra hge
        rw [List.getElem?_eq_none (by omega)] at hv
        exact absurd hv (by simp)
      rw [if_pos hlt]
      refine ⟨h.len, by simp [h.sites], ?_, ?_⟩
      · intro t k' hk'
        obtain ⟨h1, h2⟩ := h.vals t k' hk'
        refine ⟨by rw [firstOf_append_mem _ _ _ h2]; exact h1, ?_⟩
        obtain ⟨x, hx, hxt⟩ := h2
        exact ⟨x, by simp [hx], hxt⟩
      · intro j x hj
        by_cases hjl : j < done.length
        · rw [List.getElem?_append_left hjl] at hj
          obtain ⟨k', h1, h2⟩ := h.typ j x hj
          exact ⟨k', by rw [List.getElem?_append_left (by rw [h.sites]; exact hjl)]; exact h1, h2⟩
        · have hjd : j = done.length := by
            have := (List.getElem?_eq_some_iff.1 hj).1
            simp at this; omega
          subst hjd
          simp only [List.getElem?_concat_length, Option.some.injEq] at hj
          subst hj
          exact ⟨k, by rw [← h.sites]; simp, hf⟩
    | none =>
      have hnew := cacheInv_none h _ hf
      simp only [AssocMap.find_cons, if_true, Option.getD_some]
      rw [if_neg (by rw [h.len]; omega)]
      refine ⟨by simp [h.len], by simp [h.sites], ?_, ?_⟩
      · intro t k' hk'
        rw [AssocMap.find_cons] at hk'
        by_cases ht : s.typ = t
        · subst ht
          rw [if_pos rfl] at hk'
          simp only [Option.some.injEq] at hk'
          subst hk'
          refine ⟨?_, s, by simp, rfl⟩
          rw [firstOf_append_new _ _ hnew, h.len]; simp
        · rw [if_neg ht] at hk'
          obtain ⟨h1, h2⟩ := h.vals t k' hk'
          refine ⟨?_, ?_⟩
          · rw [firstOf_append_mem _ _ _ h2]
            rw [List.getElem?_append_left (List.getElem?_eq_some_iff.1 h1).1]
            exact h1
          · obtain ⟨x, hx, hxt⟩ := h2
            exact ⟨x, by simp [hx], hxt⟩
      · intro j x hj
        by_cases hjl : j < done.length
        · rw [List.getElem?_append_left hjl] at hj
          obtain ⟨k', h1, h2⟩ := h.typ j x hj
          refine ⟨k', by rw [List.getElem?_append_left (by rw [h.sites]; exact hjl)]; exact h1, ?_⟩
          rw [AssocMap.find_cons, if_neg]
          · exact h2
          · have := hnew x (List.mem_of_getElem? hj)
            first | exact this | exact Ne.symm this
        · have hjd : j = done.length := by
            have := (List.getElem?_eq_some_iff.1 hj).1
            simp at this; omega
          subst hjd
          simp only [List.getElem?_concat_length, Option.some.injEq] at hj
          subst hj
          exact ⟨m.length, by rw [← h.sites]; simp, by rw [AssocMap.find_cons, if_pos rfl]⟩

theorem cacheOf_inv (p : QPar) (sfSite : Nat → ℝ → ℝ) (sites : List Site) :
    ∃ m, CacheInv p sfSite sites m (cacheOf p sfSite sites) := by
  have := cacheLoop_inv p sfSite sites [] [] ⟨[], []⟩
    ⟨rfl, rfl, by intro t k h; simp [AssocMap.find] at h, by intro j s h; simp at h⟩
  simpa [cacheOf] using this

end Verif.Debye
