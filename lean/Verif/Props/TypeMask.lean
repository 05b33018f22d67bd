import Verif.Props.Mask
/-!
C54: what `getTypeMask` answers after `setTypeMask`.
-/
namespace Verif.Mask
open Verif.AssocMap

theorem ifclick_typ (c : Bool) (st : State) : (if c = true then st.click else st).typ = st.typ := by
  cases c <;> rfl

theorem ifclick_dflt (c : Bool) (st : State) : (if c = true then st.click else st).dflt = st.dflt := by
  cases c <;> rfl

/-- The type of an atom, as opposed to the words for all atoms. -/
def Plain (a : String) : Prop := a ≠ "all" ∧ a ≠ "ALL"

theorem canonAll_plain {a : String} (h : Plain a) : canonAll a = a := if_neg h.2

theorem find_typ_setTypeMask' (s : State) (a b : String) (m : Bool) (hab : tnorm a b ≠ (allStr, allStr))
    (k : TKey) : find (setTypeMask' s a b m).typ k =
      if k = tnorm a b then some m
      else if (decide (a = allStr) || decide (b = allStr)) &&
        eraseKey (if a ≠ allStr then a else b) (tnorm a b) k then none else find s.typ k := by
  unfold setTypeMask'
  simp only
  rw [if_neg hab]
  have hp := find_put (s.typ.filter (fun e => !((decide (a = allStr) || decide (b = allStr)) &&
    eraseKey (if a ≠ allStr then a else b) (tnorm a b) e.1))) (tnorm a b) k m
  have hf := find_filter s.typ (fun k => !((decide (a = allStr) || decide (b = allStr)) &&
    eraseKey (if a ≠ allStr then a else b) (tnorm a b) k)) k
  rw [ifclick_typ]
  simp only
  rw [hp, hf]
  by_cases hk : k = tnorm a b
  · rw [if_pos hk, if_pos hk]
  · rw [if_neg hk, if_neg hk]
    cases ((decide (a = allStr) || decide (b = allStr)) &&
      eraseKey (if a ≠ allStr then a else b) (tnorm a b) k) <;> rfl

theorem dflt_setTypeMask' (s : State) (a b : String) (m : Bool) (hab : tnorm a b ≠ (allStr, allStr)) :
    (setTypeMask' s a b m).dflt = s.dflt := by
  unfold setTypeMask'
  simp only
  rw [if_neg hab, ifclick_dflt]

/-- A mask for two atom types is read back in both orders, and no other pair of types is affected. -/
theorem typemask_pair (s : State) (a b : String) (m : Bool) (ha : Plain a) (hb : Plain b) (x y : String) :
    getTypeMask (setTypeMask s a b m) x y =
      if (x = a ∧ y = b) ∨ (x = b ∧ y = a) then m else getTypeMask s x y := by
  have hab : tnorm a b ≠ (allStr, allStr) := by
    intro h
    have h2 : tnorm a b = tnorm allStr allStr := by rw [h]; unfold tnorm; split <;> rfl
    rcases (tnorm_eq_iff _ _ _ _).1 h2 with ⟨h, _⟩ | ⟨h, _⟩ <;> exact ha.1 h
  have hf := find_typ_setTypeMask' s a b m hab
  have hd := dflt_setTypeMask' s a b m hab
  have e1 : (decide (a = allStr) || decide (b = allStr)) = false := by
    rw [decide_eq_false (show ¬ a = allStr from ha.1), decide_eq_false (show ¬ b = allStr from hb.1)]; rfl
  simp only [e1, Bool.false_and, Bool.false_eq_true, if_false] at hf
  have hna : ∀ z, tnorm z allStr ≠ tnorm a b := by
    intro z h
    rcases (tnorm_eq_iff _ _ _ _).1 h with ⟨_, h⟩ | ⟨_, h⟩
    · exact hb.1 h.symm
    · exact ha.1 h.symm
  unfold setTypeMask getTypeMask
  rw [canonAll_plain ha, canonAll_plain hb, hf, hf, hf, if_neg (hna x), if_neg (hna y), hd]
  by_cases h : (x = a ∧ y = b) ∨ (x = b ∧ y = a)
  · rw [if_pos h, if_pos ((tnorm_eq_iff _ _ _ _).2 h)]; rfl
  · rw [if_neg h, if_neg (fun h' => h ((tnorm_eq_iff _ _ _ _).1 h'))]

theorem setTypeMask_all_swap (s : State) (a al : String) (m : Bool) (ha : Plain a)
    (hal : al = "all" ∨ al = "ALL") :
    (setTypeMask s a al m).typ = (setTypeMask' s a allStr m).typ ∧
    (setTypeMask s al a m).typ = (setTypeMask' s a allStr m).typ ∧
    (setTypeMask s a al m).dflt = s.dflt ∧ (setTypeMask s al a m).dflt = s.dflt := by
  have hc : canonAll al = allStr := by
    rcases hal with rfl | rfl
    · unfold canonAll; rw [if_neg (by decide)]; rfl
    · unfold canonAll; rw [if_pos rfl]
  have hab : tnorm a allStr ≠ (allStr, allStr) := by
    intro h
    have h2 : tnorm a allStr = tnorm allStr allStr := by rw [h]; unfold tnorm; split <;> rfl
    rcases (tnorm_eq_iff _ _ _ _).1 h2 with ⟨h, _⟩ | ⟨h, _⟩ <;> exact ha.1 h
  have hs : setTypeMask' s allStr a m = setTypeMask' s a allStr m := by
    unfold setTypeMask'
    have h1 : (decide (allStr = allStr) || decide (a = allStr)) = (decide (a = allStr) || decide (allStr = allStr)) :=
      Bool.or_comm _ _
    have h2 : (if allStr ≠ allStr then allStr else a) = (if a ≠ allStr then a else allStr) := by
      rw [if_neg (by simp), if_pos (show a ≠ allStr from ha.1)]
    rw [tnorm_comm allStr a, h1, h2]
  unfold setTypeMask
  rw [canonAll_plain ha, hc, hs]
  exact ⟨rfl, rfl, dflt_setTypeMask' s a allStr m hab, dflt_setTypeMask' s a allStr m hab⟩

/-- A mask for one atom type and "all" decides every pair with that type (for the second position: unless the
first type has an "all" mask of its own), and affects no other pair of types. -/
theorem typemask_one_all (s : State) (a al : String) (m : Bool) (ha : Plain a) (hal : al = "all" ∨ al = "ALL")
    (x y : String) (hx : x ≠ "all") (hy : y ≠ "all") (s' : State)
    (hs' : s' = setTypeMask s a al m ∨ s' = setTypeMask s al a m) :
    (x = a → getTypeMask s' x y = m) ∧
    (x ≠ a → y = a → find s.typ (tnorm x "all") = none → getTypeMask s' x y = m) ∧
    (x ≠ a → y ≠ a → getTypeMask s' x y = getTypeMask s x y) := by
  have hsw := setTypeMask_all_swap s a al m ha hal
  have ht : s'.typ = (setTypeMask' s a allStr m).typ := by
    rcases hs' with rfl | rfl
    · exact hsw.1
    · exact hsw.2.1
  have hd : s'.dflt = s.dflt := by
    rcases hs' with rfl | rfl
    · exact hsw.2.2.1
    · exact hsw.2.2.2
  have hab : tnorm a allStr ≠ (allStr, allStr) := by
    intro h
    have h2 : tnorm a allStr = tnorm allStr allStr := by rw [h]; unfold tnorm; split <;> rfl
    rcases (tnorm_eq_iff _ _ _ _).1 h2 with ⟨h, _⟩ | ⟨h, _⟩ <;> exact ha.1 h
  have hf := find_typ_setTypeMask' s a allStr m hab
  have e1 : (decide (a = allStr) || decide (allStr = allStr)) = true := by simp
  have e2 : (if a ≠ allStr then a else allStr) = a := if_pos ha.1
  rw [e1, e2] at hf
  simp only [Bool.true_and] at hf
  have hall : ∀ z, z ≠ a → z ≠ allStr → tnorm z allStr ≠ tnorm a allStr := by
    intro z hz hz2 h
    rcases (tnorm_eq_iff _ _ _ _).1 h with ⟨h, _⟩ | ⟨h, _⟩
    · exact hz h
    · exact hz2 h
  have hmem : ∀ u v : String, eraseKey a (tnorm a allStr) (tnorm u v) = true ↔
      tnorm u v ≠ tnorm a allStr ∧ (a = u ∨ a = v) := by
    intro u v
    unfold eraseKey
    have : (decide (a = (tnorm u v).1) || decide (a = (tnorm u v).2)) = true ↔ (a = u ∨ a = v) := by
      unfold tnorm
      split
      · simp [or_comm]
      · simp
    rw [Bool.and_eq_true, this]
    simp
  have hne : ∀ u v : String, u ≠ allStr → v ≠ allStr → tnorm u v ≠ tnorm a allStr := by
    intro u v hu hv h
    rcases (tnorm_eq_iff _ _ _ _).1 h with ⟨_, h⟩ | ⟨h, _⟩
    · exact hv h
    · exact hu h
  have hxy := hne x y hx hy
  have h1 : find s'.typ (tnorm x y) = if a = x ∨ a = y then none else find s.typ (tnorm x y) := by
    rw [ht, hf, if_neg hxy]
    exact if_congr ((hmem x y).trans (and_iff_right hxy)) rfl rfl
  have h2 : ∀ z, z ≠ allStr → find s'.typ (tnorm z allStr) = if z = a then some m else find s.typ (tnorm z allStr) := by
    intro z hz
    rw [ht, hf]
    by_cases hza : z = a
    · rw [if_pos (by rw [hza]), if_pos hza]
    · rw [if_neg (hall z hza hz), if_neg hza, if_neg]
      rw [hmem]
      rintro ⟨_, h | h⟩
      · exact hza h.symm
      · exact ha.1 h
  unfold getTypeMask
  rw [h1, h2 x hx, h2 y hy, hd]
  refine ⟨?_, ?_, ?_⟩
  · intro h
    rw [if_pos (Or.inl h.symm), if_pos h]; rfl
  · intro h hy' hn
    rw [if_pos (Or.inr hy'.symm), if_neg h, if_pos hy']
    show Option.getD _ _ = _
    rw [show find s.typ (tnorm x allStr) = none from hn]
    rfl
  · intro h hy'
    have : ¬ (a = x ∨ a = y) := by
      rintro (h' | h')
      · exact h h'.symm
      · exact hy' h'.symm
    rw [if_neg this, if_neg h, if_neg hy']

/-- A mask for all types decides every pair of types. -/
theorem typemask_all_all (s : State) (a b : String) (m : Bool) (ha : a = "all" ∨ a = "ALL")
    (hb : b = "all" ∨ b = "ALL") (x y : String) : getTypeMask (setTypeMask s a b m) x y = m := by
  have hc : ∀ al, (al = "all" ∨ al = "ALL") → canonAll al = allStr := by
    rintro al (rfl | rfl)
    · unfold canonAll; rw [if_neg (by decide)]; rfl
    · unfold canonAll; rw [if_pos rfl]
  unfold setTypeMask setTypeMask'
  rw [hc a ha, hc b hb]
  simp only
  rw [if_pos (by unfold tnorm; split <;> rfl)]
  unfold maskAllPairs getTypeMask
  simp

/-- The last mask given for a pair of types holds through any number of later calls for other pairs of types. -/
theorem typemask_last (s : State) (a b : String) (m : Bool) (ha : Plain a) (hb : Plain b)
    (ops : List (String × String × Bool))
    (hops : ∀ o ∈ ops, Plain o.1 ∧ Plain o.2.1 ∧ ¬ ((o.1 = a ∧ o.2.1 = b) ∨ (o.1 = b ∧ o.2.1 = a))) :
    getTypeMask (ops.foldl (fun s o => setTypeMask s o.1 o.2.1 o.2.2) (setTypeMask s a b m)) a b = m ∧
    getTypeMask (ops.foldl (fun s o => setTypeMask s o.1 o.2.1 o.2.2) (setTypeMask s a b m)) b a = m := by
  have base : getTypeMask (setTypeMask s a b m) a b = m ∧ getTypeMask (setTypeMask s a b m) b a = m := by
    rw [typemask_pair s a b m ha hb a b, typemask_pair s a b m ha hb b a]
    exact ⟨if_pos (Or.inl ⟨rfl, rfl⟩), if_pos (Or.inr ⟨rfl, rfl⟩)⟩
  generalize setTypeMask s a b m = t at base
  induction ops generalizing t with
  | nil => exact base
  | cons o ops ih =>
    rw [List.foldl_cons]
    apply ih (fun o' h => hops o' (List.mem_cons_of_mem _ h))
    obtain ⟨h1, h2, h3⟩ := hops o (List.mem_cons_self ..)
    rw [typemask_pair t _ _ _ h1 h2 a b, typemask_pair t _ _ _ h1 h2 b a]
    rw [if_neg, if_neg]
    · exact base
    · rintro (⟨h, h'⟩ | ⟨h, h'⟩)
      · exact h3 (Or.inr ⟨h.symm, h'.symm⟩)
      · exact h3 (Or.inl ⟨h'.symm, h.symm⟩)
    · rintro (⟨h, h'⟩ | ⟨h, h'⟩)
      · exact h3 (Or.inl ⟨h.symm, h'.symm⟩)
      · exact h3 (Or.inr ⟨h'.symm, h.symm⟩)

example : getTypeMask (setTypeMask (setTypeMask init "C" "ALL" false) "O" "C" true) "C" "O" = true ∧
    getTypeMask (setTypeMask (setTypeMask init "C" "ALL" false) "O" "C" true) "C" "H" = false ∧
    getTypeMask (setTypeMask (setTypeMask (setTypeMask init "C" "ALL" false) "O" "C" true) "all" "C" false)
      "C" "O" = false := by
  have p : ∀ a : String, a = "C" ∨ a = "O" ∨ a = "H" → Plain a := by
    rintro a (rfl | rfl | rfl) <;> exact ⟨by decide, by decide⟩
  refine ⟨?_, ?_, ?_⟩
  · rw [typemask_pair _ _ _ _ (p _ (by simp)) (p _ (by simp)) _ _]
    rfl
  · rw [typemask_pair _ _ _ _ (p _ (by simp)) (p _ (by simp)) _ _, if_neg (by decide)]
    exact (typemask_one_all init "C" "ALL" false (p _ (by simp)) (Or.inr rfl) "C" "H" (by decide) (by decide) _
      (Or.inl rfl)).1 rfl
  · exact (typemask_one_all _ "C" "all" false (p _ (by simp)) (Or.inl rfl) "C" "O" (by decide) (by decide) _
      (Or.inr rfl)).1 rfl

end Verif.Mask
