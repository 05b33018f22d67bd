import Verif.Model.LineReader
import Verif.Props.AtomUtils
import Mathlib.Data.List.Basic
import Mathlib.Tactic.ByContra
/-!
C41: the reader of text data; C53: tables loaded with it.
-/
namespace Verif.LineReader
open Verif.AssocMap Verif.AtomUtils

/-! ### Lines and fields -/

/-- `L` is the list of the pieces of `s` that end with `sep`; the end of `s` also ends the last piece unless
that would be empty. -/
def Fields (sep : Char) (s : Str) (L : List Str) : Prop :=
  (∀ w ∈ L, sep ∉ w) ∧
  (L.flatMap (· ++ [sep]) = s ∨ (L.flatMap (· ++ [sep]) = s ++ [sep] ∧ s ≠ [] ∧ s.getLast? ≠ some sep))

theorem flat_inj (sep : Char) : ∀ (L L' : List Str), (∀ w ∈ L, sep ∉ w) → (∀ w ∈ L', sep ∉ w) →
    L.flatMap (· ++ [sep]) = L'.flatMap (· ++ [sep]) → L = L' := by
  have cut : ∀ (w w' : Str) (r r' : Str), sep ∉ w → sep ∉ w' → w ++ sep :: r = w' ++ sep :: r' → w = w' ∧ r = r' := by
    intro w
    induction w with
    | nil =>
      intro w' r r' _ h' he
      cases w' with
      | nil => simpa using he
      | cons c w' => simp at he; exact absurd (by simp [he.1]) h'
    | cons c w ih =>
      intro w' r r' h h' he
      cases w' with
      | nil => simp at he; exact absurd (by simp [he.1]) h
      | cons c' w' =>
        simp only [List.cons_append, List.cons.injEq] at he
        obtain ⟨h1, h2⟩ := ih w' r r' (fun hm => h (List.mem_cons_of_mem _ hm)) (fun hm => h' (List.mem_cons_of_mem _ hm)) he.2
        exact ⟨by rw [he.1, h1], h2⟩
  intro L
  induction L with
  | nil =>
    intro L' _ _ he
    cases L' with
    | nil => rfl
    | cons w L' => simp at he
  | cons w L ih =>
    intro L' h h' he
    cases L' with
    | nil => simp at he
    | cons w' L' =>
      simp only [List.flatMap_cons, List.append_assoc, List.cons_append, List.nil_append] at he
      obtain ⟨h1, h2⟩ := cut w w' _ _ (h w (by simp)) (h' w' (by simp)) he
      rw [h1, ih L' (fun x hx => h x (List.mem_cons_of_mem _ hx)) (fun x hx => h' x (List.mem_cons_of_mem _ hx)) h2]

theorem flat_last (sep : Char) (L : List Str) (h : L ≠ []) : (L.flatMap (· ++ [sep])).getLast? = some sep := by
  obtain ⟨L', w, rfl⟩ := List.eq_nil_or_concat L |>.resolve_left h
  simp [List.concat_eq_append]

/-- The specification determines the pieces. -/
theorem fields_unique (sep : Char) (s : Str) (L L' : List Str) (h : Fields sep s L) (h' : Fields sep s L') : L = L' := by
  have clash : ∀ L : List Str, L.flatMap (· ++ [sep]) = s → s ≠ [] → s.getLast? ≠ some sep → False := by
    intro L he h0 h1
    by_cases hL : L = []
    · subst hL; exact h0 (by simpa using he.symm)
    · exact h1 (by rw [← he]; exact flat_last sep L hL)
  rcases h.2 with e | ⟨e, a, b⟩ <;> rcases h'.2 with e' | ⟨e', a', b'⟩
  · exact flat_inj sep L L' h.1 h'.1 (e.trans e'.symm)
  · exact (clash L e a' b').elim
  · exact (clash L' e' a b).elim
  · exact flat_inj sep L L' h.1 h'.1 (e.trans e'.symm)

theorem takeWhile_ne (sep : Char) (s : Str) : sep ∉ s.takeWhile (fun c => c != sep) := by
  intro h
  have := List.all_eq_true.1 (List.all_takeWhile (p := fun c => c != sep) (l := s)) sep h
  simp at this

theorem fieldLoop_end (sep : Char) (w : Str) (fp : Stream) (h : (fp.eof || fp.fail) = true) : fieldLoop sep fp w = [] := by
  unfold fieldLoop getline
  simp [h]

theorem fieldLoop_spec (sep : Char) (n : Nat) : ∀ (s : Str) (w : Str), s.length ≤ n →
    Fields sep s (fieldLoop sep (openStream s) w) := by
  induction n with
  | zero =>
    intro s w hs
    have : s = [] := List.length_eq_zero_iff.1 (by omega)
    subst this
    unfold fieldLoop getline openStream
    simp [Fields]
  | succ n ih =>
    intro s w hs
    have hsplit := List.takeWhile_append_dropWhile (p := fun c => c != sep) (l := s)
    have hno := takeWhile_ne sep s
    rw [fieldLoop]
    cases hd : s.dropWhile (fun c => c != sep) with
    | nil =>
      have hg : getline sep (openStream s) w = (⟨[], true, (s.takeWhile (fun c => c != sep)).isEmpty⟩, s.takeWhile (fun c => c != sep)) := by
        unfold getline openStream
        simp only [Bool.or_self, Bool.false_eq_true, if_false]
        rw [hd]
      rw [hd, List.append_nil] at hsplit
      rw [hg, hsplit]
      rw [hsplit] at hno
      cases s with
      | nil => simp [Fields]
      | cons c s =>
        simp only [List.isEmpty_cons, dite_true]
        rw [fieldLoop_end _ _ _ (by simp)]
        refine ⟨by simpa using hno, Or.inr ⟨by simp, by simp, ?_⟩⟩
        intro hl
        exact hno (List.mem_of_getLast? hl)
    | cons c r =>
      have hc : c = sep := by
        have := List.head?_dropWhile_not (fun c => c != sep) s
        rw [hd] at this
        simpa using this
      subst hc
      have hg : getline c (openStream s) w = (⟨r, false, false⟩, s.takeWhile (fun d => d != c)) := by
        unfold getline openStream
        simp only [Bool.or_self, Bool.false_eq_true, if_false]
        rw [hd]
      rw [hg]
      simp only [dite_true]
      rw [hd] at hsplit
      have hlen : r.length ≤ n := by
        have := congrArg List.length hsplit
        simp at this
        omega
      obtain ⟨h1, h2⟩ := ih r (s.takeWhile (fun d => d != c)) hlen
      change Fields c s (_ :: fieldLoop c (openStream r) _)
      refine ⟨?_, ?_⟩
      · intro x hx
        rcases List.mem_cons.1 hx with rfl | hx
        · exact hno
        · exact h1 x hx
      · simp only [List.flatMap_cons]
        rcases h2 with h2 | ⟨h2, h3, h4⟩
        · left
          rw [h2, List.append_assoc]
          exact hsplit
        · right
          have hs' : s = s.takeWhile (fun d => d != c) ++ c :: r := hsplit.symm
          refine ⟨?_, ?_, ?_⟩
          · rw [h2]
            conv_rhs => rw [hs']
            simp
          · rw [hs']; simp
          · rw [hs']
            cases r with
            | nil => exact absurd rfl h3
            | cons d r =>
              rw [List.getLast?_append, List.getLast?_cons_cons]
              cases hq : (d :: r).getLast? with
              | none => simp at hq
              | some q => rw [hq] at h4; simpa using h4

/-- C41. Fields of a line with a separator. -/
theorem fields_spec (sep : Char) (line : Str) (more : Str) :
    Fields sep line (parseWords (sep :: more) line) := fieldLoop_spec sep line.length line [] (Nat.le_refl _)

theorem readAll_lines (n : Nat) : ∀ (fp : Stream) (r : Reader), fp.left ≤ n →
    (readAll fp r).map (·.line) = fieldLoop '\n' fp r.line := by
  induction n with
  | zero =>
    intro fp r h
    have : (fp.eof || fp.fail) = true := by
      unfold Stream.left at h
      by_contra hc
      rw [if_neg hc] at h
      omega
    rw [fieldLoop_end _ _ _ this]
    unfold readAll read getline
    simp [this]
  | succ n ih =>
    intro fp r h
    rw [readAll, fieldLoop]
    by_cases hf : (getline '\n' fp r.line).1.fail = false
    · rw [dif_pos hf, dif_pos (show (read fp r).1.fail = false from hf), List.map_cons]
      have := ih (read fp r).1 (read fp r).2 (by
        have := read_left fp r hf
        omega)
      rw [this]
      rfl
    · rw [dif_neg hf, dif_neg (show ¬(read fp r).1.fail = false from hf)]
      rfl

/-- The reader at the `k`-th line. -/
theorem readAll_get (n : Nat) : ∀ (fp : Stream) (r : Reader), fp.left ≤ n → ∀ (k : Nat) (q : Reader),
    (readAll fp r)[k]? = some q → q.lineno = r.lineno + k + 1 ∧ q.commentmark = r.commentmark ∧
      q.separator = r.separator ∧ q.words = parseWords r.separator q.line := by
  induction n with
  | zero =>
    intro fp r h k q hq
    have : (fp.eof || fp.fail) = true := by
      unfold Stream.left at h
      by_contra hc
      rw [if_neg hc] at h
      omega
    unfold readAll read getline at hq
    simp [this] at hq
  | succ n ih =>
    intro fp r h k q hq
    rw [readAll] at hq
    by_cases hf : (read fp r).1.fail = false
    · rw [dif_pos hf] at hq
      cases k with
      | zero =>
        simp only [List.getElem?_cons_zero, Option.some.injEq] at hq
        subst hq
        refine ⟨?_, rfl, rfl, rfl⟩
        show (if (getline '\n' fp r.line).1.fail = true then _ else _) = _
        rw [if_neg (by rw [show (getline '\n' fp r.line).1.fail = false from hf]; simp)]
      | succ k =>
        rw [List.getElem?_cons_succ] at hq
        have := ih (read fp r).1 (read fp r).2 (by have := read_left fp r hf; omega) k q hq
        have hl : (read fp r).2.lineno = r.lineno + 1 := by
          show (if (getline '\n' fp r.line).1.fail = true then _ else _) = _
          rw [if_neg (by rw [show (getline '\n' fp r.line).1.fail = false from hf]; simp)]
        rw [hl] at this
        refine ⟨by omega, this.2.1, this.2.2.1, this.2.2.2⟩
    · rw [dif_neg hf] at hq; simp at hq

/-- C41. Reading a text line by line yields its lines in order, whether or not the last one is ended by a
newline; the line number counts them from one, the settings stay and the words are those of the line. -/
theorem reading_spec (text : Str) (r : Reader) :
    Fields '\n' text ((readAll (openStream text) r).map (·.line)) ∧
    ∀ (k : Nat) (q : Reader), (readAll (openStream text) r)[k]? = some q →
      q.lineno = r.lineno + k + 1 ∧ q.commentmark = r.commentmark ∧ q.separator = r.separator ∧
      q.words = parseWords r.separator q.line := by
  refine ⟨?_, readAll_get _ _ _ (Nat.le_refl _)⟩
  rw [readAll_lines _ _ _ (Nat.le_refl _)]
  exact fieldLoop_spec '\n' _ text r.line (Nat.le_refl _)

/-! ### Words -/

/-- `ws` are the words of the line: maximal runs of characters that are not white space, in order. -/
inductive Tokens : Str → List Str → Prop
  | blank (g : Str) (hg : ∀ c ∈ g, isSpace c = true) : Tokens g []
  | word (g w rest : Str) (ws : List Str) (hg : ∀ c ∈ g, isSpace c = true) (hw : ∀ c ∈ w, isSpace c = false)
      (hne : w ≠ []) (hr : rest = [] ∨ ∃ c r, rest = c :: r ∧ isSpace c = true) (ht : Tokens rest ws) :
      Tokens (g ++ (w ++ rest)) (w :: ws)

theorem dropWhile_gap (g r : Str) (hg : ∀ c ∈ g, isSpace c = true) (hr : ∀ c t, r = c :: t → isSpace c = false) :
    (g ++ r).dropWhile isSpace = r := by
  induction g with
  | nil =>
    cases r with
    | nil => rfl
    | cons c t => rw [List.nil_append, List.dropWhile_cons, if_neg (by rw [hr c t rfl]; simp)]
  | cons c g ih =>
    rw [List.cons_append, List.dropWhile_cons, if_pos (hg c (by simp))]
    exact ih (fun d hd => hg d (List.mem_cons_of_mem _ hd))

theorem span_word (w r : Str) (hw : ∀ c ∈ w, isSpace c = false) (hr : r = [] ∨ ∃ c t, r = c :: t ∧ isSpace c = true) :
    (w ++ r).dropWhile (fun c => !isSpace c) = r ∧ (w ++ r).takeWhile (fun c => !isSpace c) = w := by
  induction w with
  | nil =>
    rcases hr with rfl | ⟨c, t, rfl, hc⟩
    · simp
    · simp [hc]
  | cons c w ih =>
    have h1 := hw c (by simp)
    have := ih (fun d hd => hw d (List.mem_cons_of_mem _ hd))
    constructor
    · rw [List.cons_append, List.dropWhile_cons, if_pos (by rw [h1]; rfl)]; exact this.1
    · rw [List.cons_append, List.takeWhile_cons, if_pos (by rw [h1]; rfl), this.2]

/-- The specification determines the words. -/
theorem tokens_unique (s : Str) (ws ws' : List Str) (h : Tokens s ws) (h' : Tokens s ws') : ws = ws' := by
  have hd : ∀ {s ws}, Tokens s ws →
      (ws = [] ∧ s.dropWhile isSpace = []) ∨
      (∃ w ws1 rest, ws = w :: ws1 ∧ w ≠ [] ∧ s.dropWhile isSpace = w ++ rest ∧
        (s.dropWhile isSpace).dropWhile (fun c => !isSpace c) = rest ∧
        (s.dropWhile isSpace).takeWhile (fun c => !isSpace c) = w ∧ Tokens rest ws1) := by
    intro s ws h
    cases h with
    | blank g hg => left; exact ⟨rfl, by have := dropWhile_gap s [] hg (by simp); simpa using this⟩
    | word g w rest ws hg hw hne hr ht =>
      right
      refine ⟨w, ws, rest, rfl, hne, ?_⟩
      have e : (g ++ (w ++ rest)).dropWhile isSpace = w ++ rest := by
        refine dropWhile_gap g _ hg ?_
        intro c t hc
        cases w with
        | nil => exact absurd rfl hne
        | cons d w =>
          simp only [List.cons_append, List.cons.injEq] at hc
          rw [← hc.1]; exact hw d (by simp)
      rw [e]
      obtain ⟨h1, h2⟩ := span_word w rest hw hr
      exact ⟨rfl, h1, h2, ht⟩
  induction ws generalizing s ws' with
  | nil =>
    rcases hd h with ⟨_, h2⟩ | ⟨_, _, _, h1, _⟩
    · rcases hd h' with ⟨h3, _⟩ | ⟨w, _, rest, _, hne, e, _⟩
      · exact h3.symm
      · rw [h2] at e
        cases w with
        | nil => exact absurd rfl hne
        | cons c w => simp at e
    · cases h1
  | cons w ws ih =>
    rcases hd h with ⟨h1, _⟩ | ⟨w1, ws1, rest, h1, hne, e, e2, e3, ht⟩
    · cases h1
    · rw [List.cons.injEq] at h1
      obtain ⟨rfl, rfl⟩ := h1
      rcases hd h' with ⟨_, h2⟩ | ⟨w', ws', rest', h1', _, e', e2', e3', ht'⟩
      · rw [h2] at e
        cases w with
        | nil => exact absurd rfl hne
        | cons c w => simp at e
      · have hw : w = w' := e3.symm.trans e3'
        have hr : rest = rest' := e2.symm.trans e2'
        subst hr
        rw [h1', ih rest ws' ht ht', hw]

theorem wordLoop_end (w : Str) (fp : Stream) (h : (fp.eof || fp.fail) = true) : wordLoop fp w = [] := by
  unfold wordLoop getword
  simp [h]

theorem all_of_takeWhile (p : Char → Bool) (l : Str) : ∀ c ∈ l.takeWhile p, p c = true := 
  fun c h => List.all_eq_true.1 (List.all_takeWhile (p := p) (l := l)) c h

theorem wordLoop_spec (n : Nat) : ∀ (s : Str) (w : Str), s.length ≤ n → Tokens s (wordLoop (openStream s) w) := by
  induction n with
  | zero =>
    intro s w hs
    have : s = [] := List.length_eq_zero_iff.1 (by omega)
    subst this
    unfold wordLoop getword openStream
    simp
    exact Tokens.blank [] (by simp)
  | succ n ih =>
    intro s w hs
    have hgap := List.takeWhile_append_dropWhile (p := isSpace) (l := s)
    have hg := all_of_takeWhile isSpace s
    rw [wordLoop]
    by_cases hr : (s.dropWhile isSpace).isEmpty = true
    · have hgw : getword (openStream s) w = (⟨[], true, true⟩, w) := by
        unfold getword openStream
        simp only [Bool.or_self, Bool.false_eq_true, if_false]
        rw [if_pos hr]
      rw [hgw]
      simp only [Bool.true_eq_false, dite_false]
      rw [List.isEmpty_iff.1 hr, List.append_nil] at hgap
      rw [← hgap]
      exact Tokens.blank _ hg
    · have hgw : getword (openStream s) w = (⟨(s.dropWhile isSpace).dropWhile (fun c => !isSpace c),
          ((s.dropWhile isSpace).dropWhile (fun c => !isSpace c)).isEmpty, false⟩,
          (s.dropWhile isSpace).takeWhile (fun c => !isSpace c)) := by
        unfold getword openStream
        simp only [Bool.or_self, Bool.false_eq_true, if_false]
        rw [if_neg hr]
      rw [hgw]
      simp only [dite_true]
      set u := s.dropWhile isSpace with hu
      have hword := List.takeWhile_append_dropWhile (p := fun c => !isSpace c) (l := u)
      have hw := all_of_takeWhile (fun c => !isSpace c) u
      have hne : u.takeWhile (fun c => !isSpace c) ≠ [] := by
        cases hd : u with
        | nil => rw [hd] at hr; simp at hr
        | cons c r =>
          have := List.head?_dropWhile_not isSpace s
          rw [← hu, hd] at this
          have hc : isSpace c = false := by simpa using this
          rw [List.takeWhile_cons, if_pos (by rw [hc]; rfl)]
          simp
      have hrest : u.dropWhile (fun c => !isSpace c) = [] ∨
          ∃ c r, u.dropWhile (fun c => !isSpace c) = c :: r ∧ isSpace c = true := by
        cases hd : u.dropWhile (fun c => !isSpace c) with
        | nil => exact Or.inl rfl
        | cons c r =>
          right
          have := List.head?_dropWhile_not (fun c => !isSpace c) u
          rw [hd] at this
          exact ⟨c, r, rfl, by simpa using this⟩
      have htail : Tokens (u.dropWhile (fun c => !isSpace c))
          (wordLoop ⟨u.dropWhile (fun c => !isSpace c), (u.dropWhile (fun c => !isSpace c)).isEmpty, false⟩
            (u.takeWhile (fun c => !isSpace c))) := by
        rcases hrest with h0 | ⟨c, r, h0, _⟩
        · rw [h0, wordLoop_end _ _ (by simp)]
          exact Tokens.blank [] (by simp)
        · have hlen : (u.dropWhile (fun c => !isSpace c)).length ≤ n := by
            have h1 := congrArg List.length hgap
            have h2 := congrArg List.length hword
            simp only [List.length_append] at h1 h2
            have h3 : 0 < (u.takeWhile (fun c => !isSpace c)).length := List.length_pos_iff.2 hne
            omega
          have := ih (u.dropWhile (fun c => !isSpace c)) (u.takeWhile (fun c => !isSpace c)) hlen
          have he : (u.dropWhile (fun c => !isSpace c)).isEmpty = false := by rw [h0]; rfl
          rw [he]
          exact this
      have := Tokens.word (s.takeWhile isSpace) (u.takeWhile (fun c => !isSpace c)) _ _ hg
        (fun c hc => by have := hw c hc; simpa using this) hne hrest htail
      rw [hword, hgap] at this
      exact this

/-- C41. Without a separator the words are the runs between white space. -/
theorem words_spec (line : Str) : Tokens line (parseWords [] line) := wordLoop_spec line.length line [] (Nat.le_refl _)

/-! ### Classification -/

theorem tokens_nil {s : Str} (h : Tokens s []) : ∀ c ∈ s, isSpace c = true := by
  cases h with
  | blank g hg => exact hg

theorem head_word {s : Str} {w : Str} {ws : List Str} (h : Tokens s (w :: ws)) :
    ∃ rest, s.dropWhile isSpace = w ++ rest ∧ w ≠ [] ∧ (∀ c ∈ w, isSpace c = false) ∧
      (rest = [] ∨ ∃ c t, rest = c :: t ∧ isSpace c = true) := by
  cases h with
  | word g w rest ws hg hw hne hr ht =>
    refine ⟨rest, dropWhile_gap g _ hg ?_, hne, hw, hr⟩
    intro c t hc
    cases w with
    | nil => exact absurd rfl hne
    | cons d w =>
      simp only [List.cons_append, List.cons.injEq] at hc
      rw [← hc.1]; exact hw d (by simp)

theorem take_eq_iff (w m : Str) : (w.take m.length == m) = true ↔ m <+: w := by
  rw [beq_iff_eq, List.prefix_iff_eq_take]
  exact eq_comm

/-- A prefix that avoids a class of characters lies within the part before them. -/
theorem prefix_cut (m w rest : Str) (p : Char → Bool) (hm : ∀ c ∈ m, p c = false)
    (hr : rest = [] ∨ ∃ c t, rest = c :: t ∧ p c = true) : m <+: w ++ rest ↔ m <+: w := by
  constructor
  · intro h
    rcases hr with rfl | ⟨c, t, rfl, hc⟩
    · simpa using h
    · rcases List.prefix_or_prefix_of_prefix h (List.prefix_append w (c :: t)) with h1 | h1
      · exact h1
      · obtain ⟨u, hu⟩ := h1
        subst hu
        rw [List.prefix_append_right_inj] at h
        cases u with
        | nil => simp
        | cons d u =>
          obtain ⟨v, hv⟩ := h
          simp only [List.cons_append, List.cons.injEq] at hv
          have := hm d (by simp)
          rw [hv.1, hc] at this
          cases this
  · intro h; exact h.trans (List.prefix_append _ _)

/-- C41. Without a separator: a line is blank when it has nothing but white space, and a comment when its
first characters after white space are the comment mark; `isignored` is one of the two. -/
theorem classify_words (r : Reader) (hw : r.words = parseWords [] r.line) (hm : r.commentmark ≠ [])
    (hs : ∀ c ∈ r.commentmark, isSpace c = false) :
    (r.isblank = true ↔ ∀ c ∈ r.line, isSpace c = true) ∧
    (r.iscomment = true ↔ r.commentmark <+: r.line.dropWhile isSpace) ∧
    (r.isignored = true ↔ r.isblank = true ∨ r.iscomment = true) := by
  have ht := words_spec r.line
  rw [← hw] at ht
  refine ⟨?_, ?_, ?_⟩
  · unfold Reader.isblank
    cases hws : r.words with
    | nil =>
      rw [hws] at ht
      simp only [List.isEmpty_nil, true_iff]
      exact tokens_nil ht
    | cons w ws =>
      rw [hws] at ht
      simp only [List.isEmpty_cons, Bool.false_eq_true, false_iff]
      intro hall
      obtain ⟨rest, e, hne, hwc, _⟩ := head_word ht
      cases w with
      | nil => exact hne rfl
      | cons c w =>
        have hc := hwc c (by simp)
        have : c ∈ r.line := (List.dropWhile_suffix isSpace).subset (by rw [e]; simp)
        rw [hall c this] at hc
        cases hc
  · unfold Reader.iscomment
    cases hws : r.words with
    | nil =>
      rw [hws] at ht
      simp only [Bool.and_false, Bool.false_eq_true, false_iff]
      have := dropWhile_gap r.line [] (tokens_nil ht) (by simp)
      rw [List.append_nil] at this
      rw [this]
      intro hp
      exact hm (List.prefix_nil.1 hp)
    | cons w ws =>
      rw [hws] at ht
      obtain ⟨rest, e, hne, hwc, hrest⟩ := head_word ht
      have hme : r.commentmark.isEmpty = false := by
        cases hc : r.commentmark with
        | nil => exact absurd hc hm
        | cons a b => rfl
      simp only [hme, Bool.not_false, Bool.true_and]
      rw [take_eq_iff, e, prefix_cut _ _ _ isSpace hs hrest]
  · unfold Reader.isignored Reader.isblank
    rw [Bool.or_eq_true]

/-- C41. With a separator: a line is blank when it is empty and a comment when it starts with the mark. -/
theorem classify_fields (r : Reader) (sep : Char) (hsep : r.separator = [sep]) (hw : r.words = parseWords r.separator r.line)
    (hm : r.commentmark ≠ []) (hs : sep ∉ r.commentmark) :
    (r.isblank = true ↔ r.line = []) ∧ (r.iscomment = true ↔ r.commentmark <+: r.line) := by
  have ht := fields_spec sep r.line []
  rw [← hsep, ← hw] at ht
  have hme : r.commentmark.isEmpty = false := by
    cases hc : r.commentmark with
    | nil => exact absurd hc hm
    | cons a b => rfl
  cases hws : r.words with
  | nil =>
    rw [hws] at ht
    have he : r.line = [] := by
      rcases ht.2 with h | ⟨h, _⟩
      · simpa using h.symm
      · simp at h
    unfold Reader.isblank Reader.iscomment
    simp only [hws, List.isEmpty_nil, Bool.and_false, Bool.false_eq_true, false_iff, true_iff]
    refine ⟨he, ?_⟩
    rw [he]; intro hp; exact hm (List.prefix_nil.1 hp)
  | cons w ws =>
    rw [hws] at ht
    obtain ⟨_, ht2⟩ := ht
    have hne : r.line ≠ [] := by
      rcases ht2 with h | ⟨_, h, _⟩
      · rw [← h]; simp
      · exact h
    unfold Reader.isblank Reader.iscomment
    simp only [hws, List.isEmpty_cons, Bool.false_eq_true, false_iff, hme, Bool.not_false, Bool.true_and]
    refine ⟨hne, ?_⟩
    rw [take_eq_iff]
    have hs' : ∀ c ∈ r.commentmark, (fun c => c == sep) c = false := by
      intro c hc
      simp only [beq_eq_false_iff_ne]
      rintro rfl; exact hs hc
    rcases ht2 with h | ⟨h, _, _⟩
    · rw [← h]
      simp only [List.flatMap_cons, List.append_assoc]
      exact (prefix_cut _ _ _ (fun c => c == sep) hs' (Or.inr ⟨sep, _, rfl, by simp⟩)).symm
    · -- the line itself followed by the separator
      have h1 : r.commentmark <+: r.line ++ [sep] ↔ r.commentmark <+: r.line :=
        prefix_cut _ _ _ (fun c => c == sep) hs' (Or.inr ⟨sep, [], rfl, by simp⟩)
      rw [← h1, ← h]
      simp only [List.flatMap_cons, List.append_assoc]
      exact (prefix_cut _ _ _ (fun c => c == sep) hs' (Or.inr ⟨sep, _, rfl, by simp⟩)).symm

/-! ### The table of electron numbers -/

/-- C53 (specification). Name of the ion of element `el` with charge `v`: "Na1+", "O2-". -/
def ionName (el : Str) (v : Int) : Str :=
  if 0 < v then el ++ (toString v.natAbs).toList ++ ['+'] else el ++ (toString v.natAbs).toList ++ ['-']

theorem ionSymbol_eq (el : Str) (v : Int) : ionSymbol el v = ionName el v := by
  unfold ionSymbol ionName digits
  by_cases h : 0 < v
  · rw [if_pos h, if_pos h]
  · rw [if_neg h, if_neg h]

/-- All entries that the parsed lines ask for, in order of the file. -/
def entries (l : List (Str × Int × List Int)) : List (Str × Int) :=
  l.flatMap fun e => (e.1, e.2.1) :: e.2.2.map fun v => (ionName e.1 v, e.2.1 - v)

theorem find_insertNew (t : Table) (k : Str) (v : Int) (q : Str) :
    find (insertNew t k v) q = match find t q with | some x => some x | none => if q = k then some v else none := by
  unfold insertNew
  by_cases h : (find t k).isSome = true
  · rw [if_pos h]
    cases hq : find t q with
    | some x => rfl
    | none =>
      simp only
      rw [if_neg]
      rintro rfl
      rw [hq] at h; simp at h
  · rw [if_neg h, find_put]
    by_cases hk : q = k
    · subst hk
      have : find t q = none := by simpa using h
      rw [this]
    · rw [if_neg hk]
      cases find t q <;> simp [hk]

theorem find_insertAll (l : List (Str × Int)) (t : Table) (q : Str) :
    find (l.foldl (fun t e => insertNew t e.1 e.2) t) q = match find t q with | some x => some x | none => find l q := by
  induction l generalizing t with
  | nil => rw [List.foldl_nil]; cases find t q <;> rfl
  | cons e l ih =>
    rw [List.foldl_cons, ih, find_insertNew]
    cases find t q with
    | some x => rfl
    | none =>
      simp only [find_cons]
      by_cases hk : q = e.1
      · rw [if_pos hk]; first | rfl | rw [if_pos hk.symm]
      · rw [if_neg hk]; first | rfl | rw [if_neg (fun h => hk h.symm)]

theorem addIons_eq (t : Table) (el : Str) (z : Int) (vs : List Int) :
    addIons t el z vs = ((el, z) :: vs.map fun v => (ionName el v, z - v)).foldl (fun t e => insertNew t e.1 e.2) t := by
  unfold addIons
  rw [List.foldl_cons, List.foldl_map]
  simp only [ionSymbol_eq]

/-- The parsed data lines of a file. -/
def dataLines (parse : Str → Option (Str × Int × List Int)) (rs : List Reader) : List (Option (Str × Int × List Int)) :=
  (rs.filter fun r => !r.isignored).map fun r => parse r.line

theorem load_spec (parse : Str → Option (Str × Int × List Int)) (rs : List Reader) (t : Table) (l : List (Str × Int × List Int))
    (h : dataLines parse rs = l.map some) :
    loadLoop parse rs t = ((entries l).foldl (fun t e => insertNew t e.1 e.2) t, true) := by
  induction rs generalizing t l with
  | nil =>
    cases l with
    | nil => rfl
    | cons a l => simp [dataLines] at h
  | cons r rs ih =>
    unfold loadLoop
    by_cases hi : r.isignored = true
    · rw [if_pos hi]
      refine ih t l ?_
      rw [← h]; unfold dataLines; rw [List.filter_cons, if_neg (by simp [hi])]
    · rw [if_neg hi]
      unfold dataLines at h
      rw [List.filter_cons, if_pos (by simp [hi]), List.map_cons] at h
      cases l with
      | nil => simp at h
      | cons a l =>
        simp only [List.map_cons, List.cons.injEq] at h
        rw [h.1]
        obtain ⟨el, z, vs⟩ := a
        simp only
        rw [ih _ l h.2, addIons_eq]
        unfold entries
        rw [List.flatMap_cons, List.foldl_append]

/-- The lines before the first bad one are loaded. -/
theorem load_fail (parse : Str → Option (Str × Int × List Int)) (rs : List Reader) (t : Table) (h : none ∈ dataLines parse rs) :
    (loadLoop parse rs t).2 = false := by
  induction rs generalizing t with
  | nil => simp [dataLines] at h
  | cons r rs ih =>
    unfold loadLoop
    by_cases hi : r.isignored = true
    · rw [if_pos hi]
      refine ih t ?_
      rw [← show dataLines parse (r :: rs) = dataLines parse rs by unfold dataLines; rw [List.filter_cons, if_neg (by simp [hi])]]
      exact h
    · rw [if_neg hi]
      unfold dataLines at h
      rw [List.filter_cons, if_pos (by simp [hi]), List.map_cons] at h
      cases hp : parse r.line with
      | none => rfl
      | some v =>
        obtain ⟨el, z, vs⟩ := v
        simp only
        refine ih _ ?_
        rw [hp] at h
        simpa [dataLines] using h

/-- C53. The first load succeeds exactly when every data line can be read and at least `minsize` different symbols are listed. -/
theorem load_ok_iff (parse : Str → Option (Str × Int × List Int)) (minsize : Nat) (text : Str) :
    (getTable parse minsize text none).2.isSome ↔
      ∃ l, dataLines parse (readAll (openStream text) new) = l.map some ∧
        minsize ≤ ((entries l).foldl (fun t e => insertNew t e.1 e.2) []).length := by
  unfold getTable
  simp only
  constructor
  · intro h
    by_cases hn : none ∈ dataLines parse (readAll (openStream text) new)
    · rw [load_fail parse _ _ hn] at h
      simp at h
    · have : ∃ l : List (Str × Int × List Int), dataLines parse (readAll (openStream text) new) = l.map some := by
        generalize dataLines parse (readAll (openStream text) new) = d at hn
        induction d with
        | nil => exact ⟨[], rfl⟩
        | cons a d ih =>
          obtain ⟨l, rfl⟩ := ih fun hh => hn (List.mem_cons_of_mem _ hh)
          cases a with
          | none => exact absurd List.mem_cons_self hn
          | some v => exact ⟨v :: l, rfl⟩
      obtain ⟨l, hl⟩ := this
      refine ⟨l, hl, ?_⟩
      rw [load_spec parse _ _ l hl] at h
      by_contra hm
      simp [hm] at h
  · rintro ⟨l, hl, hm⟩
    rw [load_spec parse _ _ l hl]
    simp [hm]

/-- The loaded table is a function of the file: an element or ion has the number of its first entry. -/
theorem table_spec (parse : Str → Option (Str × Int × List Int)) (minsize : Nat) (text : Str)
    (l : List (Str × Int × List Int)) (h : dataLines parse (readAll (openStream text) new) = l.map some) (t : Table)
    (ht : (getTable parse minsize text none).2 = some t) (q : Str) : find t q = find (entries l) q := by
  unfold getTable at ht
  simp only at ht
  rw [load_spec parse _ _ l h] at ht
  split at ht
  · simp only [Option.some.injEq] at ht
    rw [← ht, find_insertAll]; rfl
  · cases ht

/-- C53. The number of electrons of an ion is that of its element minus the charge, for every ion in the file
(when no symbol is listed twice). -/
theorem electron_ion (parse : Str → Option (Str × Int × List Int)) (minsize : Nat) (text : Str)
    (l : List (Str × Int × List Int)) (h : dataLines parse (readAll (openStream text) new) = l.map some) (t : Table)
    (ht : (getTable parse minsize text none).2 = some t) (hn : (keys (entries l)).Nodup)
    (el : Str) (z : Int) (vs : List Int) (hl : (el, z, vs) ∈ l) :
    electronnumber t el = some z ∧ ∀ v ∈ vs, electronnumber t (ionName el v) = some (z - v) := by
  have hf := table_spec parse minsize text l h t ht
  have hmem : ∀ k n, (k, n) ∈ entries l → find t k = some n := by
    intro k n hk
    rw [hf, find_eq_some_iff hn]; exact hk
  refine ⟨?_, ?_⟩
  · unfold electronnumber
    rw [hmem el z (by unfold entries; rw [List.mem_flatMap]; exact ⟨_, hl, by simp⟩)]
  · intro v hv
    unfold electronnumber
    rw [hmem (ionName el v) (z - v) (by
      unfold entries; rw [List.mem_flatMap]
      exact ⟨_, hl, List.mem_cons_of_mem _ (List.mem_map.2 ⟨v, hv, rfl⟩)⟩)]

/-- C53. Other spellings of an ion or element: what is not in the table is looked up by its bare symbol and
charge. -/
theorem electron_spelling (t : Table) (smbl : Str) (h : find t smbl = none) :
    electronnumber t smbl = if atomValence smbl = 0 then find t (atomBareSymbol smbl)
      else find t (ionName (atomBareSymbol smbl) (atomValence smbl)) := by
  unfold electronnumber
  rw [h]
  simp only [ionSymbol_eq]
  split <;> rfl

/-- C53. The short spelling of a singly charged ion, such as "Na+", after any isotope prefix `p` such as "22-":
the same number as the full spelling "Na1+", unless the file lists that very string or the element is odd
(a first character that is a prefix character or a last one that is blank or a suffix character). -/
theorem electron_short (parse : Str → Option (Str × Int × List Int)) (minsize : Nat) (text : Str)
    (l : List (Str × Int × List Int)) (h : dataLines parse (readAll (openStream text) new) = l.map some) (t : Table)
    (ht : (getTable parse minsize text none).2 = some t) (hn : (keys (entries l)).Nodup)
    (p e : Str) (c sgn : Char) (v z : Int) (vs : List Int) (hl : (e ++ [c], z, vs) ∈ l) (hv : v ∈ vs)
    (hsgn : (sgn = '+' ∧ v = 1) ∨ (sgn = '-' ∧ v = -1)) (hp : ∀ x ∈ p, lead x = true)
    (h1 : ∀ x, (e ++ [c]).head? = some x → lead x = false) (h2 : trail c = false) (h3 : isSpace c = false)
    (hnew : (p ++ (e ++ [c]) ++ [sgn]) ∉ keys (entries l)) :
    electronnumber t (p ++ (e ++ [c]) ++ [sgn]) = some (z - v) := by
  have hf := table_spec parse minsize text l h t ht
  have hnone : find t (p ++ (e ++ [c]) ++ [sgn]) = none := by
    rw [hf, find_eq_none_iff]; exact hnew
  have hb : atomBareSymbol (p ++ (e ++ [c]) ++ [sgn]) = e ++ [c] :=
    (symbol_roundtrip p (e ++ [c]) '1' 1 sgn v (by simp) hp h1 (by simpa using h2) rfl hsgn).2.2.1
  have hval : atomValence (p ++ (e ++ [c]) ++ [sgn]) = v := by
    have := valence_spec (p ++ e) c sgn v h3 hsgn
    have hd : digit? c = none := by
      cases hd : digit? c with
      | none => rfl
      | some k =>
        exfalso
        unfold digit? at hd
        repeat' split at hd
        all_goals first | (subst c; revert h2; decide) | (cases hd)
    rw [hd] at this
    simpa using this
  have hv0 : v ≠ 0 := by rcases hsgn with ⟨-, rfl⟩ | ⟨-, rfl⟩ <;> decide
  rw [electron_spelling t _ hnone, hval, hb, if_neg hv0, hf, find_eq_some_iff hn]
  unfold entries; rw [List.mem_flatMap]
  exact ⟨_, hl, List.mem_cons_of_mem _ (List.mem_map.2 ⟨v, hv, rfl⟩)⟩

/-- C53. Once loaded the table stays: all later calls return the same one, whatever has become of the file. -/
theorem table_stays (parse : Str → Option (Str × Int × List Int)) (minsize : Nat) (text text' : Str) (t : Table)
    (ht : (getTable parse minsize text none).2 = some t) :
    getTable parse minsize text' (getTable parse minsize text none).1 = (some t, some t) := by
  have : (getTable parse minsize text none).1 = some t := by
    unfold getTable at ht ⊢
    simp only at ht ⊢
    split at ht
    · exact ht
    · cases ht
  rw [this]; rfl

/-- A defect: the static pointer is set before the file is read, so after a load that failed with an exception
the next call returns the incomplete table without complaint. -/
theorem failed_load_bug (parse : Str → Option (Str × Int × List Int)) (minsize : Nat) (text : Str)
    (_h : (getTable parse minsize text none).2 = none) :
    ∃ t, getTable parse minsize text (getTable parse minsize text none).1 = (some t, some t) := ⟨_, rfl⟩

/-! ### Concrete cases -/

/-- Three lines, the last one not ended. -/
example : (readAll (openStream "a  b\n\n # c d".toList) new).map (fun r => (r.lineno, r.words, r.isblank, r.iscomment)) =
    [(1, ["a".toList, "b".toList], false, false), (2, [], true, false), (3, ["#".toList, "c".toList, "d".toList], false, true)] := by
  decide +kernel

/-- A trailing separator adds no field, an inner one does. -/
example : parseWords [','] "a,,b,".toList = ["a".toList, [], "b".toList] := by decide +kernel

/-- The hypotheses of `electron_ion` hold for a small file. -/
example :
    let parse : Str → Option (Str × Int × List Int) := fun s =>
      if s = "Na 11 1".toList then some ("Na".toList, 11, [1]) else if s = "O 8 -2 -1".toList then some ("O".toList, 8, [-2, -1]) else none
    let text := "# ions\nNa 11 1\n\nO 8 -2 -1\n".toList
    let l : List (Str × Int × List Int) := [("Na".toList, 11, [1]), ("O".toList, 8, [-2, -1])]
    dataLines parse (readAll (openStream text) new) = l.map some ∧
    ((getTable parse 4 text none).2.isSome = true) ∧ (keys (entries l)).Nodup ∧
    ((getTable parse 4 text none).2.bind fun t => electronnumber t "O--".toList) = some 9 ∧
    ((getTable parse 4 text none).2.bind fun t => electronnumber t "Na+".toList) = some 10 ∧
    ((getTable parse 6 text none).2 = none) := by
  decide +kernel

end Verif.LineReader
