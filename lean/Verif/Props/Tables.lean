import Verif.Model.Tables
import Mathlib.Algebra.Field.Basic
import Mathlib.Algebra.Order.Ring.Unbundled.Rat
import Mathlib.Data.List.Nodup
import Mathlib.Tactic.Tauto
/-! C23, C26: atom radii and scattering factor tables. -/
namespace Verif.Tables
open Verif.AssocMap Verif.AtomUtils

variable {K : Type}

/-! ### C23 -/

theorem wordsAux_append (cur a b : Str) :
    wordsAux cur (a ++ ' ' :: b) = wordsAux cur a ++ wordsAux [] b := by
  induction a generalizing cur with
  | nil =>
    have h1 : wordsAux cur (' ' :: b) = if cur = [] then wordsAux [] b else cur.reverse :: wordsAux [] b := by
      rw [wordsAux]; rfl
    have h2 : wordsAux cur [] = if cur = [] then [] else [cur.reverse] := by rw [wordsAux]
    rw [List.nil_append, h1, h2]
    split <;> simp
  | cons c a ih =>
    rw [List.cons_append, wordsAux, wordsAux]
    split
    · split
      · exact ih []
      · rw [ih [], List.cons_append]
    · exact ih _

theorem wordsAux_word (cur a : Str) (h : ∀ c ∈ a, c ≠ ' ') :
    wordsAux cur a = if cur = [] ∧ a = [] then [] else [cur.reverse ++ a] := by
  induction a generalizing cur with
  | nil =>
    rw [wordsAux]
    by_cases hc : cur = [] <;> simp [hc]
  | cons c a ih =>
    rw [wordsAux, if_neg (h c (by simp)), ih _ (fun d hd => h d (List.mem_cons_of_mem _ hd))]
    simp

theorem words_comma (a b : Str) : words (a ++ ',' :: b) = words a ++ words b := by
  unfold words
  rw [List.filter_append, List.filter_cons, if_pos (by decide), List.map_append, List.map_cons, if_pos rfl]
  exact wordsAux_append [] _ _

theorem words_single (s : Str) (h : ∀ c ∈ s, c ≠ ',') :
    words s = if (s.filter fun c => !isSpace c) = [] then [] else [s.filter fun c => !isSpace c] := by
  unfold words
  have e : ((s.filter fun c => !isSpace c).map fun c => if c = ',' then ' ' else c) =
      s.filter fun c => !isSpace c := by
    conv => rhs; rw [← List.map_id (s.filter fun c => !isSpace c)]
    apply List.map_congr_left
    intro c hc
    rw [if_neg (h c (List.mem_filter.1 hc).1)]; rfl
  rw [e, wordsAux_word]
  · simp
  · intro c hc he
    subst he
    have := (List.mem_filter.1 hc).2
    simp [isSpace] at this

/-- C23 (specification). What a text means: a list of assignments, or `none` if it is malformed.
Text without a comma is one entry: blanks are ignored, an empty entry means nothing, otherwise the
part before the first colon is the symbol and the rest must begin with a number. -/
def entryMeaning (num : Str → Option K) (s : Str) : Option (List (Str × K)) :=
  if (s.filter fun c => !isSpace c) = [] then some []
  else match splitColon (s.filter fun c => !isSpace c) with
    | none => none
    | some (smbl, txt) => (num txt).map fun v => [(smbl, v)]

/-- C23 (specification). Comma separated entries, in order. -/
def meaning (num : Str → Option K) : List Str → Option (List (Str × K))
  | [] => some []
  | e :: es =>
    match entryMeaning num e, meaning num es with
    | some a, some b => some (a ++ b)
    | _, _ => none

/-- The symbol ends at the first colon. -/
theorem splitColon_spec (a b : Str) (h : ∀ c ∈ a, c ≠ ':') : splitColon (a ++ ':' :: b) = some (a, b) := by
  induction a with
  | nil => simp [splitColon]
  | cons c a ih =>
    rw [List.cons_append, splitColon, if_neg (h c (by simp)), ih (fun d hd => h d (List.mem_cons_of_mem _ hd))]
    rfl

theorem splitColon_none (a : Str) (h : ∀ c ∈ a, c ≠ ':') : splitColon a = none := by
  induction a with
  | nil => rfl
  | cons c a ih =>
    rw [splitColon, if_neg (h c (by simp)), ih (fun d hd => h d (List.mem_cons_of_mem _ hd))]; rfl

theorem parse_append (num : Str → Option K) (rds : Radii K) (a b : List Str) :
    parseEntries num rds (a ++ b) = (parseEntries num rds a).bind fun r => parseEntries num r b := by
  induction a generalizing rds with
  | nil => rfl
  | cons w a ih =>
    rw [List.cons_append, parseEntries, parseEntries]
    cases splitColon w with
    | none => rfl
    | some e =>
      obtain ⟨s, t⟩ := e
      simp only
      cases num t with
      | none => rfl
      | some v => simp only; exact ih _

/-- Apply assignments in order. -/
def assignAll (t : Radii K) (l : List (Str × K)) : Radii K := l.foldl (fun t kv => put t kv.1 kv.2) t

theorem parse_meaning (num : Str → Option K) (es : List Str) (hes : ∀ e ∈ es, ∀ c ∈ e, c ≠ ',') (rds : Radii K) :
    parseEntries num rds (es.flatMap words) = (meaning num es).map fun l => assignAll rds l := by
  induction es generalizing rds with
  | nil => rfl
  | cons e es ih =>
    rw [List.flatMap_cons, parse_append, words_single e (hes e (by simp))]
    unfold meaning entryMeaning
    by_cases h0 : (e.filter fun c => !isSpace c) = []
    · rw [if_pos h0, if_pos h0, parseEntries, Option.bind_some, ih (fun x hx => hes x (List.mem_cons_of_mem _ hx))]
      cases meaning num es <;> rfl
    · rw [if_neg h0, if_neg h0, parseEntries]
      cases splitColon (e.filter fun c => !isSpace c) with
      | none => rfl
      | some p =>
        obtain ⟨s, t⟩ := p
        simp only
        cases num t with
        | none => rfl
        | some v =>
          simp only [Option.map_some]
          rw [parseEntries, Option.bind_some, ih (fun x hx => hes x (List.mem_cons_of_mem _ hx))]
          cases meaning num es <;> rfl

theorem words_join (es : List Str) : words (join [','] es) = es.flatMap words := by
  induction es with
  | nil => rfl
  | cons e es ih =>
    cases es with
    | nil => simp [join]
    | cons e' es =>
      have : join [','] (e :: e' :: es) = e ++ [','] ++ join [','] (e' :: es) := rfl
      rw [this, List.append_assoc, List.singleton_append, words_comma, ih]
      simp

theorem find_assignAll (t : Radii K) (l : List (Str × K)) (s : Str) :
    find (assignAll t l) s = match find l.reverse s with | some v => some v | none => find t s := by
  induction l generalizing t with
  | nil => rfl
  | cons e l ih =>
    have : assignAll t (e :: l) = assignAll (put t e.1 e.2) l := rfl
    rw [this, ih, find_put, List.reverse_cons]
    have h : ∀ (m : List (Str × K)), find (m ++ [e]) s = match find m s with
        | some v => some v | none => if e.1 = s then some e.2 else none := by
      intro m
      induction m with
      | nil => simp
      | cons x m ihm =>
        rw [List.cons_append, find_cons, find_cons]
        split
        · rfl
        · exact ihm
    rw [h]
    cases find l.reverse s with
    | some v => rfl
    | none =>
      simp only
      by_cases he : e.1 = s
      · rw [if_pos he, if_pos he.symm]
      · rw [if_neg he, if_neg (fun h => he h.symm)]

theorem nodup_assignAll (t : Radii K) (l : List (Str × K)) (h : (keys t).Nodup) :
    (keys (assignAll t l)).Nodup := by
  induction l generalizing t with
  | nil => exact h
  | cons e l ih => exact ih _ (nodup_put _ _ h)

theorem find_reverse (l : Radii K) (h : (keys l).Nodup) (s : Str) : find l.reverse s = find l s := by
  apply find_perm
  · unfold keys
    rw [List.map_reverse]
    exact List.nodup_reverse.2 h
  · exact List.reverse_perm l

/-- C23. `fromString` is all-or-nothing: for every table and every text, given as its comma
separated entries, either the text is malformed, the call fails and the table is unchanged, or all
its assignments take effect in order (the last one for a symbol wins) and no other symbol changes. -/
theorem fromString_spec (num : Str → Option K) (t : Radii K) (es : List Str)
    (hes : ∀ e ∈ es, ∀ c ∈ e, c ≠ ',') :
    match meaning num es with
    | none => fromString num t (join [','] es) = (t, false)
    | some l => (fromString num t (join [','] es)).2 = true ∧
        ∀ s, find (fromString num t (join [','] es)).1 s =
          match find l.reverse s with | some v => some v | none => find t s := by
  have hp := parse_meaning num es hes []
  unfold fromString
  rw [words_join, hp]
  cases hm : meaning num es with
  | none => rfl
  | some l =>
    simp only [Option.map_some, true_and]
    intro s
    have h1 := find_assignAll t (assignAll [] l) s
    unfold assignAll at h1 ⊢
    rw [h1]
    have hn : (keys (assignAll ([] : Radii K) l)).Nodup := nodup_assignAll [] l (by simp [keys])
    have h2 := find_reverse _ hn s
    have h3 := find_assignAll ([] : Radii K) l s
    unfold assignAll at h2 h3
    rw [h2, h3, find_nil]
    cases find l.reverse s <;> rfl

/-- Every text is the join of its comma separated entries. -/
theorem text_split (s : Str) : ∃ es, s = join [','] es ∧ ∀ e ∈ es, ∀ c ∈ e, c ≠ ',' := by
  induction s with
  | nil => exact ⟨[], rfl, by simp⟩
  | cons c s ih =>
    obtain ⟨es, rfl, h⟩ := ih
    by_cases hc : c = ','
    · subst hc
      cases es with
      | nil => exact ⟨[[], []], rfl, by simp⟩
      | cons e es => exact ⟨[] :: e :: es, rfl, by
          intro x hx
          rcases List.mem_cons.1 hx with rfl | hx
          · simp
          · exact h x hx⟩
    · cases es with
      | nil => exact ⟨[[c]], rfl, by simpa using hc⟩
      | cons e es =>
        refine ⟨(c :: e) :: es, ?_, ?_⟩
        · cases es <;> rfl
        · intro x hx
          rcases List.mem_cons.1 hx with rfl | hx
          · intro d hd
            rcases List.mem_cons.1 hd with rfl | hd
            · exact hc
            · exact h e (by simp) d hd
          · exact h x (List.mem_cons_of_mem _ hx)

/-- C23. For any text at all a failed `fromString` leaves the table unchanged. -/
theorem fromString_failed (num : Str → Option K) (t : Radii K) (s : Str)
    (h : (fromString num t s).2 = false) : (fromString num t s).1 = t := by
  obtain ⟨es, rfl, hes⟩ := text_split s
  have := fromString_spec num t es hes
  cases hm : meaning num es with
  | none => rw [hm] at this; simp only at this; rw [this]
  | some l => rw [hm] at this; simp only at this; rw [this.1] at h; cases h

/-- C23 (specification). The custom value in force after a history: the last call that concerns the
symbol decides. -/
noncomputable def lastCustom (num : Str → Option K) (s : Str) (cur : Option K) : List (ROp K) → Option K
  | [] => cur
  | .set s' r :: ops => lastCustom num s (if s' = s then some r else cur) ops
  | .reset s' :: ops => lastCustom num s (if s' = s then none else cur) ops
  | .resetAll :: ops => lastCustom num s none ops
  | .fromString txt :: ops =>
    lastCustom num s (match meaning num (Classical.choose (text_split txt)) with
      | none => cur
      | some l => match find l.reverse s with | some v => some v | none => cur) ops

/-- C23. `lookup` after any history of calls returns the custom radius in force or the standard one. -/
theorem lookup_history (num : Str → Option K) (std : Str → K) (t : Radii K) (ops : List (ROp K)) (s : Str) :
    lookup std (ops.foldl (rstep num) t) s =
      match lastCustom num s (find t s) ops with | some r => r | none => std s := by
  suffices h : find (ops.foldl (rstep num) t) s = lastCustom num s (find t s) ops by
    unfold lookup; rw [h]
    cases lastCustom num s (find t s) ops <;> rfl
  induction ops generalizing t with
  | nil => rfl
  | cons o ops ih =>
    rw [List.foldl_cons, ih]
    cases o with
    | set s' r =>
      simp only [rstep, setCustom, lastCustom, find_put]
      congr 1
      by_cases hs : s' = s
      · rw [if_pos hs, if_pos hs.symm]
      · rw [if_neg hs, if_neg (fun h => hs h.symm)]
    | reset s' =>
      simp only [rstep, resetCustom, lastCustom, find_erase]
      congr 1
      by_cases hs : s' = s
      · rw [if_pos hs, if_pos hs.symm]
      · rw [if_neg hs, if_neg (fun h => hs h.symm)]
    | resetAll => rfl
    | fromString txt =>
      simp only [rstep, lastCustom]
      congr 1
      have hsp := Classical.choose_spec (text_split txt)
      generalize Classical.choose (text_split txt) = es at *
      have := fromString_spec num t es hsp.2
      rw [← hsp.1] at this
      cases hm : meaning num es with
      | none => rw [hm] at this; simp only at this ⊢; rw [this]
      | some l => rw [hm] at this; simp only at this ⊢; rw [this.2 s]

/-! Round trip -/

theorem entry_text (num : Str → Option K) (s txt : Str) (v : K) (hs : ∀ c ∈ s, isSpace c = false ∧ c ≠ ':')
    (ht : ∀ c ∈ txt, isSpace c = false) (hv : num txt = some v) :
    entryMeaning num (s ++ ':' :: txt) = some [(s, v)] := by
  have hf : ((s ++ ':' :: txt).filter fun c => !isSpace c) = s ++ ':' :: txt := by
    rw [List.filter_eq_self]
    intro c hc
    rcases List.mem_append.1 hc with h | h
    · rw [(hs c h).1]; rfl
    · rcases List.mem_cons.1 h with rfl | h
      · decide
      · rw [ht c h]; rfl
  unfold entryMeaning
  rw [hf, if_neg (by simp), splitColon_spec s txt (fun c hc => (hs c hc).2)]
  simp only
  rw [hv]; rfl

theorem meaning_entries (num : Str → Option K) (fmt : K → Str) (rnd : K → K) (val : Str → K) (l : List Str)
    (hs : ∀ s ∈ l, ∀ c ∈ s, isSpace c = false ∧ c ≠ ':')
    (ht : ∀ s ∈ l, (∀ c ∈ fmt (val s), isSpace c = false) ∧ num (fmt (val s)) = some (rnd (val s))) :
    meaning num (l.map fun s => s ++ ':' :: fmt (val s)) = some (l.map fun s => (s, rnd (val s))) := by
  induction l with
  | nil => rfl
  | cons s l ih =>
    rw [List.map_cons, meaning, entry_text num s _ (rnd (val s)) (hs s (by simp)) (ht s (by simp)).1 (ht s (by simp)).2,
      ih (fun x hx => hs x (List.mem_cons_of_mem _ hx)) (fun x hx => ht x (List.mem_cons_of_mem _ hx))]
    rfl

theorem find_map_self (val : Str → K) (l : List Str) (s : Str) :
    find (l.map fun s => (s, val s)) s = if s ∈ l then some (val s) else none := by
  induction l with
  | nil => rfl
  | cons x l ih =>
    rw [List.map_cons, find_cons, ih]
    by_cases h : x = s
    · subst h; simp
    · rw [if_neg h]
      have : s ≠ x := fun h' => h h'.symm
      simp [this]

/-- C23. `fromString(toString())` in an empty table gives the same symbols, each radius rounded the way
printing and reading it back rounds it (`rnd`; in the library: to six significant digits), for symbols
without blanks, commas and colons. -/
theorem roundtrip_rounded [Inhabited K] (num : Str → Option K) (fmt : K → Str) (rnd : K → K) (t : Radii K)
    (hsym : ∀ s ∈ keys t, ∀ c ∈ s, isSpace c = false ∧ c ≠ ':' ∧ c ≠ ',')
    (hval : ∀ s v, find t s = some v →
      (∀ c ∈ fmt v, isSpace c = false ∧ c ≠ ',') ∧ num (fmt v) = some (rnd v)) :
    (fromString num [] (toString fmt t [','])).2 = true ∧
    ∀ s, find (fromString num [] (toString fmt t [','])).1 s = (find t s).map rnd := by
  have hperm : ((keys t).mergeSort strLe).Perm (keys t) := List.mergeSort_perm _ _
  have hmem : ∀ s, s ∈ (keys t).mergeSort strLe ↔ ∃ v, find t s = some v := by
    intro s
    rw [hperm.mem_iff]
    have := find_eq_none_iff (m := t) (k := s)
    cases hf : find t s with
    | none => rw [hf] at this; simp only [true_iff] at this; simp [this]
    | some v => rw [hf] at this; simp only [reduceCtorEq, false_iff, not_not] at this; simp [this]
  have hv : ∀ s ∈ (keys t).mergeSort strLe,
      (∀ c ∈ fmt ((find t s).getD default), isSpace c = false ∧ c ≠ ',') ∧
      num (fmt ((find t s).getD default)) = some (rnd ((find t s).getD default)) := by
    intro s hs
    obtain ⟨v, hv⟩ := (hmem s).1 hs
    have := hval s v hv
    rw [hv]; exact this
  have hk : ∀ s ∈ (keys t).mergeSort strLe, ∀ c ∈ s, isSpace c = false ∧ c ≠ ':' ∧ c ≠ ',' :=
    fun s hs => hsym s (hperm.mem_iff.1 hs)
  have hm := meaning_entries num fmt rnd (fun s => (find t s).getD default) ((keys t).mergeSort strLe)
    (fun s hs c hc => ⟨(hk s hs c hc).1, (hk s hs c hc).2.1⟩)
    (fun s hs => ⟨fun c hc => ((hv s hs).1 c hc).1, (hv s hs).2⟩)
  have hspec := fromString_spec num ([] : Radii K)
    (((keys t).mergeSort strLe).map fun s => s ++ ':' :: fmt ((find t s).getD default)) (by
      intro e he c hc
      obtain ⟨s, hs, rfl⟩ := List.mem_map.1 he
      rcases List.mem_append.1 hc with h | h
      · exact (hk s hs c h).2.2
      · rcases List.mem_cons.1 h with rfl | h
        · decide
        · exact ((hv s hs).1 c h).2)
  rw [hm] at hspec
  simp only at hspec
  refine ⟨hspec.1, ?_⟩
  intro s
  have := hspec.2 s
  unfold toString
  rw [this]
  have e : (((keys t).mergeSort strLe).map fun s => (s, rnd ((find t s).getD default))).reverse =
      ((keys t).mergeSort strLe).reverse.map fun s => (s, rnd ((find t s).getD default)) := by
    rw [List.map_reverse]
  rw [e, find_map_self (fun s => rnd ((find t s).getD default))]
  by_cases hs : s ∈ (keys t).mergeSort strLe
  · rw [if_pos (by simpa using hs)]
    obtain ⟨v, hv⟩ := (hmem s).1 hs
    simp [hv]
  · rw [if_neg (by simpa using hs)]
    have : find t s = none := by
      cases hf : find t s with
      | none => rfl
      | some v => exact absurd ((hmem s).2 ⟨v, hf⟩) hs
    rw [this]; rfl

/-- C23. `fromString(toString())` restores the custom radii in an empty table, for symbols without
blanks, commas and colons and radii that survive printing and reading (in the library: radii with at
most six significant digits). -/
theorem roundtrip [Inhabited K] (num : Str → Option K) (fmt : K → Str) (t : Radii K)
    (hsym : ∀ s ∈ keys t, ∀ c ∈ s, isSpace c = false ∧ c ≠ ':' ∧ c ≠ ',')
    (hval : ∀ s v, find t s = some v →
      (∀ c ∈ fmt v, isSpace c = false ∧ c ≠ ',') ∧ num (fmt v) = some v) :
    (fromString num [] (toString fmt t [','])).2 = true ∧
    ∀ s, find (fromString num [] (toString fmt t [','])).1 s = find t s := by
  have := roundtrip_rounded num fmt id t hsym hval
  simpa using this

theorem strLe_trans (a b c : Str) : strLe a b = true → strLe b c = true → strLe a c = true := by
  induction a generalizing b c with
  | nil => intros; simp [strLe]
  | cons x a ih =>
    cases b with
    | nil => intro h; simp [strLe] at h
    | cons y b =>
      cases c with
      | nil => intro _ h; simp [strLe] at h
      | cons z c =>
        simp only [strLe, Bool.or_eq_true, Bool.and_eq_true, decide_eq_true_eq]
        rintro (h1 | ⟨h1, h2⟩) (h3 | ⟨h3, h4⟩)
        · left; omega
        · left; omega
        · left; omega
        · right; exact ⟨by omega, ih b c h2 h4⟩

theorem strLe_total (a b : Str) : (strLe a b || strLe b a) = true := by
  induction a generalizing b with
  | nil => simp [strLe]
  | cons x a ih =>
    cases b with
    | nil => simp [strLe]
    | cons y b =>
      have := ih b
      simp only [strLe, Bool.or_eq_true, Bool.and_eq_true, decide_eq_true_eq] at this ⊢
      rcases Nat.lt_trichotomy x.toNat y.toNat with h | h | h
      · left; left; exact h
      · rcases this with h2 | h2
        · left; right; exact ⟨h, h2⟩
        · right; right; exact ⟨h.symm, h2⟩
      · right; left; exact h

/-- C23. `toString` lists every custom symbol once, in alphabetical order, whatever the order in
which they were set. -/
theorem toString_sorted [Inhabited K] (fmt : K → Str) (t : Radii K) (sep : Str) :
    ∃ l : List Str, toString fmt t sep = join sep (l.map fun s => s ++ ':' :: fmt ((find t s).getD default)) ∧
      l.Perm (keys t) ∧ l.Pairwise fun a b => strLe a b = true :=
  ⟨_, rfl, List.mergeSort_perm _ _, List.pairwise_mergeSort strLe_trans strLe_total _⟩

/-- A concrete case with a number reader for single digits: blanks and empty entries are ignored,
the later entry wins, a malformed entry changes nothing. -/
def exNum : Str → Option Nat
  | c :: _ => if c.isDigit then some (c.toNat - 48) else none
  | [] => none

example :
    lookup (fun _ => 0) (fromString exNum [(['X'], 9)] " C : 3,, N:1, C :4 ".toList).1 ['C'] = 4 ∧
    lookup (fun _ => 0) (fromString exNum [(['X'], 9)] " C : 3,, N:1, C :4 ".toList).1 ['X'] = 9 ∧
    fromString exNum [(['X'], 9)] "C:3,N1".toList = ([(['X'], 9)], false) ∧
    fromString exNum [(['X'], 9)] "C:3,N:x".toList = ([(['X'], 9)], false) := by decide

/-- The hypotheses of the round trip are met. -/
def exFmt (n : Nat) : Str := [Char.ofNat (n % 10 + 48)]

example : let t : Radii Nat := [(['N', 'a'], 2), (['C'], 3)]
    (∀ s ∈ keys t, ∀ c ∈ s, isSpace c = false ∧ c ≠ ':' ∧ c ≠ ',') ∧
    (∀ v ∈ [2, 3], (∀ c ∈ exFmt v, isSpace c = false ∧ c ≠ ',') ∧ exNum (exFmt v) = some v) ∧
    toString exFmt t [','] = "C:3,Na:2".toList := by
  refine ⟨by decide, by decide, ?_⟩
  have : (keys ([(['N', 'a'], 2), (['C'], 3)] : Radii Nat)).mergeSort strLe = [['C'], ['N', 'a']] := by
    simp [keys, List.mergeSort, List.MergeSort.Internal.splitInTwo, List.merge, strLe]
  unfold toString
  rw [this]
  decide

/-! ### C26 -/

/-- C26 (specification). The customisation in force for `s` after a history of calls. -/
def effect [One K] [Div K] (std : Str → K → Option K) (s : Str) (cur : Option (Str × K)) :
    SOp K → Option (Str × K)
  | .setAs s' src => if s' = s then some (src, 1) else cur
  | .setVal s' src v q =>
    match std src q with
    | none => cur
    | some f => if s' = s then some (src, v / f) else cur
  | .reset s' => if s' = s then none else cur
  | .resetAll => none

theorem find_assign [DecidableEq K] (t : SFTable K) (s s' : Str) (e : Str × K) :
    find (t.assign s' e).custom s = if s' = s then some e else find t.custom s := by
  unfold SFTable.assign
  split
  · rename_i h
    split
    · rename_i hs; rw [← hs]; exact h
    · rfl
  · simp only [find_put]
    by_cases hs : s' = s
    · rw [if_pos hs, if_pos hs.symm]
    · rw [if_neg hs, if_neg (fun h => hs h.symm)]

theorem find_sstep [One K] [Div K] [DecidableEq K] (std : Str → K → Option K) (t : SFTable K) (o : SOp K)
    (s : Str) : find (sstep std t o).custom s = effect std s (find t.custom s) o := by
  cases o with
  | setAs s' src => exact find_assign t s s' (src, 1)
  | setVal s' src v q =>
    unfold sstep SFTable.setCustomVal effect
    simp only
    cases std src q with
    | none => rfl
    | some f => exact find_assign t s s' (src, v / f)
  | reset s' =>
    unfold sstep SFTable.resetCustom effect
    simp only [find_erase]
    by_cases hs : s' = s
    · rw [if_pos hs, if_pos hs.symm]
    · rw [if_neg hs, if_neg (fun h => hs h.symm)]
  | resetAll => rfl

/-- C26. `lookup` after any history uses the customisation in force (source symbol and scale) and
otherwise the standard table; `getCustomSymbols` lists exactly the customised symbols. -/
theorem sft_lookup_history [One K] [Div K] [Mul K] [DecidableEq K] (std : Str → K → Option K) (t : SFTable K)
    (ops : List (SOp K)) (s : Str) (q : K) :
    (ops.foldl (sstep std) t).lookup std s q =
      (match ops.foldl (effect std s) (find t.custom s) with
        | some (src, scale) => (std src q).map fun f => f * scale
        | none => std s q) ∧
    (s ∈ (ops.foldl (sstep std) t).customSymbols ↔ ops.foldl (effect std s) (find t.custom s) ≠ none) := by
  have h : find (ops.foldl (sstep std) t).custom s = ops.foldl (effect std s) (find t.custom s) := by
    induction ops generalizing t with
    | nil => rfl
    | cons o ops ih => rw [List.foldl_cons, ih, find_sstep, List.foldl_cons]
  constructor
  · unfold SFTable.lookup
    rw [h]
    cases ops.foldl (effect std s) (find t.custom s) <;> rfl
  · unfold SFTable.customSymbols
    rw [← h]
    have := find_eq_none_iff (m := (ops.foldl (sstep std) t).custom) (k := s)
    tauto

/-- C26. Each call clicks the ticker, and once, exactly when it changes the customisation of some symbol. -/
theorem sft_click [One K] [Div K] [DecidableEq K] (std : Str → K → Option K) (t : SFTable K) (o : SOp K) :
    ((sstep std t o).clicks = t.clicks + 1 ∧ ∃ s, find (sstep std t o).custom s ≠ find t.custom s) ∨
    ((sstep std t o).clicks = t.clicks ∧ ∀ s, find (sstep std t o).custom s = find t.custom s) := by
  have hassign : ∀ s e, ((t.assign s e).clicks = t.clicks + 1 ∧
      ∃ s', find (t.assign s e).custom s' ≠ find t.custom s') ∨
      ((t.assign s e).clicks = t.clicks ∧ ∀ s', find (t.assign s e).custom s' = find t.custom s') := by
    intro s e
    unfold SFTable.assign
    split
    · right; exact ⟨rfl, fun _ => rfl⟩
    · rename_i h
      left
      refine ⟨rfl, s, ?_⟩
      simp only [find_put, if_true]
      exact fun h' => h h'.symm
  cases o with
  | setAs s src => exact hassign s (src, 1)
  | setVal s src v q =>
    unfold sstep SFTable.setCustomVal
    simp only
    cases std src q with
    | none => right; exact ⟨rfl, fun _ => rfl⟩
    | some f => exact hassign s (src, v / f)
  | reset s =>
    unfold sstep SFTable.resetCustom
    simp only
    cases hf : find t.custom s with
    | none =>
      right
      refine ⟨rfl, ?_⟩
      intro s'
      rw [find_erase]
      split
      · rename_i h; rw [h, hf]
      · rfl
    | some e =>
      left
      refine ⟨rfl, s, ?_⟩
      rw [find_erase, if_pos rfl, hf]; simp
  | resetAll =>
    unfold sstep SFTable.resetAll
    simp only
    cases hc : t.custom with
    | nil => right; exact ⟨rfl, fun _ => rfl⟩
    | cons e m =>
      left
      refine ⟨rfl, e.1, ?_⟩
      simp

/-- C26. `setCustomAs(smbl, src, value, q)` makes the table return `value` for `smbl` at `q`, and the
factor of `src` scaled by the same ratio at any other Q. -/
theorem sft_custom_value [Field K] [DecidableEq K] (std : Str → K → Option K) (t t' : SFTable K)
    (s src : Str) (value q f : K) (hf : std src q = some f) (h0 : f ≠ 0)
    (h : t.setCustomVal std s src value q = some t') :
    t'.lookup std s q = some value ∧
    ∀ q', t'.lookup std s q' = (std src q').map fun g => g * (value / f) := by
  unfold SFTable.setCustomVal at h
  rw [hf, Option.map_some, Option.some.injEq] at h
  subst h
  have hl : ∀ q', (t.assign s (src, value / f)).lookup std s q' = (std src q').map fun g => g * (value / f) := by
    intro q'
    unfold SFTable.lookup
    rw [find_assign, if_pos rfl]
  refine ⟨?_, hl⟩
  rw [hl, hf, Option.map_some, mul_div_cancel₀ _ h0]

/-- A concrete history over ℚ: a deuterium-like entry scaled from hydrogen. -/
example : let std : Str → ℚ → Option ℚ := fun s q => if s = ['H'] then some (1 / (1 + q)) else none
    let ops : List (SOp ℚ) := [.setVal ['D'] ['H'] 2 0, .setVal ['D'] ['H'] 2 0, .setVal ['E'] ['Q'] 1 0,
      .reset ['X'], .setAs ['T'] ['H']]
    (ops.foldl (sstep std) ⟨[], 0⟩).lookup std ['D'] 1 = some 1 ∧
    (ops.foldl (sstep std) ⟨[], 0⟩).clicks = 2 := by decide +kernel

end Verif.Tables
