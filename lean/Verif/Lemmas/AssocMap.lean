import Verif.Model.AssocMap
/-! Lemmas about list-based maps and sets. -/
namespace Verif.AssocMap

variable {κ β : Type} [DecidableEq κ]

@[simp] theorem find_nil (k : κ) : find ([] : List (κ × β)) k = none := rfl

@[simp] theorem find_cons (m : List (κ × β)) (e : κ × β) (k : κ) :
    find (e :: m) k = if e.1 = k then some e.2 else find m k := rfl

theorem find_erase (m : List (κ × β)) (k k' : κ) :
    find (erase m k) k' = if k' = k then none else find m k' := by
  induction m with
  | nil => simp [erase]
  | cons e m ih =>
    simp only [erase] at ih
    by_cases h : e.1 = k
    · simp only [erase, List.filter_cons, h, decide_true, Bool.not_true, Bool.false_eq_true,
        if_false, ih, find_cons]
      by_cases h2 : k' = k
      · simp [h2]
      · have : k ≠ k' := fun h => h2 h.symm
        simp [h2, this]
    · simp only [erase, List.filter_cons, h, decide_false, Bool.not_false, if_true, find_cons, ih]
      by_cases h2 : k' = k
      · subst h2; simp [h]
      · simp [h2]

theorem find_put (m : List (κ × β)) (k k' : κ) (v : β) :
    find (put m k v) k' = if k' = k then some v else find m k' := by
  simp only [put, find_cons, find_erase]
  by_cases h : k' = k
  · subst h; simp
  · have : k ≠ k' := fun h' => h h'.symm
    simp [h, this]

theorem mem_of_find {m : List (κ × β)} {k : κ} {v : β} (h : find m k = some v) : (k, v) ∈ m := by
  induction m with
  | nil => simp at h
  | cons e m ih =>
    simp only [find_cons] at h
    split at h
    · rename_i he; cases h; subst he; simp
    · exact List.mem_cons_of_mem _ (ih h)

theorem find_eq_none_iff {m : List (κ × β)} {k : κ} : find m k = none ↔ k ∉ keys m := by
  induction m with
  | nil => simp [keys]
  | cons e m ih =>
    simp only [find_cons, keys, List.map_cons, List.mem_cons, not_or]
    by_cases h : e.1 = k
    · simp [h]
    · have : k ≠ e.1 := fun h' => h h'.symm
      simp only [h, if_false, this, not_false_eq_true, true_and]; exact ih

theorem find_eq_some_iff {m : List (κ × β)} (hn : (keys m).Nodup) {k : κ} {v : β} :
    find m k = some v ↔ (k, v) ∈ m := by
  constructor
  · exact mem_of_find
  · induction m with
    | nil => simp
    | cons e m ih =>
      intro h
      simp only [keys, List.map_cons, List.nodup_cons] at hn
      simp only [find_cons]
      rcases List.mem_cons.1 h with h | h
      · subst h; simp
      · have : e.1 ≠ k := by
          intro he; apply hn.1; rw [he]; exact List.mem_map.2 ⟨_, h, rfl⟩
        simp only [this, if_false]; exact ih hn.2 h

theorem keys_erase_sublist (m : List (κ × β)) (k : κ) : (keys (erase m k)).Sublist (keys m) :=
  (List.filter_sublist).map _

theorem nodup_erase {m : List (κ × β)} (k : κ) (h : (keys m).Nodup) : (keys (erase m k)).Nodup :=
  h.sublist (keys_erase_sublist m k)

theorem not_mem_keys_erase (m : List (κ × β)) (k : κ) : k ∉ keys (erase m k) := by
  rw [← find_eq_none_iff, find_erase]; simp

theorem nodup_put {m : List (κ × β)} (k : κ) (v : β) (h : (keys m).Nodup) :
    (keys (put m k v)).Nodup := by
  simp only [put, keys, List.map_cons, List.nodup_cons]
  exact ⟨not_mem_keys_erase m k, nodup_erase k h⟩

theorem find_filter (m : List (κ × β)) (p : κ → Bool) (k : κ) :
    find (m.filter (fun e => p e.1)) k = if p k then find m k else none := by
  induction m with
  | nil => simp
  | cons e m ih =>
    by_cases hp : p e.1
    · simp only [List.filter_cons, hp, if_true, find_cons, ih]
      by_cases h : e.1 = k
      · subst h; simp [hp]
      · simp [h]
    · simp only [List.filter_cons, hp, find_cons, Bool.false_eq_true, if_false, ih]
      by_cases h : e.1 = k
      · subst h; simp [hp]
      · simp [h]

theorem find_map_val {γ : Type} (m : List (κ × β)) (f : β → γ) (k : κ) :
    find (m.map (fun e => (e.1, f e.2))) k = (find m k).map f := by
  induction m with
  | nil => simp
  | cons e m ih =>
    simp only [List.map_cons, find_cons, ih]
    split <;> simp

theorem find_perm {m m' : List (κ × β)} (hn : (keys m).Nodup) (hp : m.Perm m') (k : κ) :
    find m k = find m' k := by
  have hn' : (keys m').Nodup := (hp.map _).nodup_iff.1 hn
  cases h : find m' k with
  | none =>
    rw [find_eq_none_iff] at h ⊢
    intro hk; exact h ((hp.map _).mem_iff.1 hk)
  | some v =>
    rw [find_eq_some_iff hn'] at h
    rw [find_eq_some_iff hn]; exact hp.mem_iff.2 h

theorem mem_setErase (s : List κ) (x y : κ) : y ∈ (setErase s x).1 ↔ y ∈ s ∧ y ≠ x := by
  simp [setErase]

theorem mem_setInsert (s : List κ) (x y : κ) : y ∈ (setInsert s x).1 ↔ y ∈ s ∨ y = x := by
  unfold setInsert
  split
  · constructor
    · exact Or.inl
    · rintro (h | h)
      · exact h
      · subst h; assumption
  · simp only [List.mem_cons]; exact Or.comm

end Verif.AssocMap
