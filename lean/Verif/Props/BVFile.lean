import Verif.Model.BVFile
import Verif.Props.Input
/-! C81: the standard table of bond valence parameters. -/
namespace Verif.BVFile
open Verif.AssocMap Verif.LineReader Verif.Input Verif.AtomUtils
open Verif.BV hiding Str

/-! ### Specification -/

/-- A number of the type `int`. -/
def InInt (v : ℤ) : Prop := -2 ^ 31 ≤ v ∧ v < 2 ^ 31

/-- A number that rounds to a finite double. -/
def InDouble (q : ℚ) : Prop := |Double.fl64 q| < 2 ^ 1024

/-- The words of a data line: two atoms with their valences, `Ro`, `B` and the reference; further words are ignored. -/
structure CifWords (ws : List Str) (a0 : Str) (v0 : ℤ) (a1 : Str) (v1 : ℤ) (ro b : ℚ) (ref : Str) : Prop where
  words : ∃ s0 s1 r bt more, ws = a0 :: s0 :: a1 :: s1 :: r :: bt :: ref :: more ∧ IntText s0 v0 ∧ IntText s1 v1 ∧
    DecText r ro ∧ DecText bt b
  in0 : InInt v0
  in1 : InInt v1
  inro : InDouble ro
  inb : InDouble b

/-- The parameter that a line with these words describes: the atom of the larger valence first, the doubles nearest to
the numbers. -/
def describes (a0 : Str) (v0 : ℤ) (a1 : Str) (v1 : ℤ) (ro b : ℚ) (ref : Str) (p : Param) : Prop :=
  p.2 = ⟨Double.fl64 ro, Double.fl64 b, ref⟩ ∧
  ((v1 ≤ v0 ∧ p.1 = ⟨a0, v0, a1, v1⟩) ∨ (v0 < v1 ∧ p.1 = ⟨a1, v1, a0, v0⟩))

/-- `line` is a data line for the parameter `p`. -/
def CifText (line : Str) (p : Param) : Prop :=
  ∃ ws a0 v0 a1 v1 ro b ref, Tokens line ws ∧ CifWords ws a0 v0 a1 v1 ro b ref ∧ describes a0 v0 a1 v1 ro b ref p

/-- The last word of the header. -/
def mark : Str := "_valence_param_B".toList

/-! ### One line -/

/-- **C81**: a line with the expected words gives the parameter that it describes. -/
theorem cif_line {line : Str} {p : Param} (h : CifText line p) : parseCif line = some p := by
  obtain ⟨ws, a0, v0, a1, v1, ro, b, ref, ht, ⟨⟨s0, s1, r, bt, more, rfl, i0, i1, d0, d1⟩, in0, in1, inro, inb⟩, hp, hk⟩ := h
  obtain ⟨e1, f1, b1⟩ := before_word (before_open ht) []
  obtain ⟨fp1, g1, b2⟩ := before_int b1 i0 in0
  obtain ⟨e2, f2, b3⟩ := before_word b2 []
  obtain ⟨fp2, g2, b4⟩ := before_int b3 i1 in1
  obtain ⟨fp3, g3, b5⟩ := before_double b4 d0 inro
  obtain ⟨fp4, g4, b6⟩ := before_double b5 d1 inb
  obtain ⟨e3, f3, b7⟩ := before_word b6 []
  have hkey : mkKey a0 v0 a1 v1 = p.1 := by
    unfold mkKey
    rcases hk with ⟨h1, h2⟩ | ⟨h1, h2⟩
    · rw [if_neg (by omega), h2]
    · rw [if_pos h1, h2]
  unfold parseCif
  dsimp only
  rw [f1, g1]
  dsimp only
  rw [f2, g2]
  dsimp only
  rw [g3]
  dsimp only
  rw [g4]
  dsimp only
  rw [f3, e1, e2, e3, hkey, ← hp]
  simp

/-- A word that cannot be the start of an integer. -/
def NotInt (w : Str) : Prop := ∀ c t, w = c :: t → isDigit c = false ∧ c ≠ '-' ∧ c ≠ '+'

/-- A word that cannot be the start of a number. -/
def NotDouble (w : Str) : Prop := ∀ c t, w = c :: t → isDigit c = false ∧ c ≠ '-' ∧ c ≠ '+' ∧ c ≠ '.'

theorem before_notInt {fp : Stream} {w : Str} {ws : List Str} (h : Before fp (w :: ws)) (hn : NotInt w) :
    (getInt fp).2 = none := by
  obtain ⟨g, rest, rfl, hg, hw, hne, hr, hb⟩ := before_cases h
  refine ((int_fails g (w ++ rest) [] hg).1 ?_).1
  intro c t e
  cases w with
  | nil => exact absurd rfl hne
  | cons d w => cases e; exact ⟨hw _ (by simp), hn _ _ rfl⟩

theorem before_notDouble {fp : Stream} {w : Str} {ws : List Str} (h : Before fp (w :: ws)) (hn : NotDouble w) :
    (getDouble fp).2 = none := by
  obtain ⟨g, rest, rfl, hg, hw, hne, hr, hb⟩ := before_cases h
  refine (double_fails g (w ++ rest) hg ?_).1
  intro c t e
  cases w with
  | nil => exact absurd rfl hne
  | cons d w => cases e; exact ⟨hw _ (by simp), hn _ _ rfl⟩

theorem pair_none {α β : Type} {x : α × Option β} (h : x.2 = none) : x = (x.1, none) := by
  rw [← h]

/-- **C81**: a line is rejected when a valence or a number is not one, and when it ends early. -/
theorem cif_line_rejected (line : Str) (ws : List Str) (ht : Tokens line ws) :
    (∀ a0, ws = [a0] ∨ ws = [] → parseCif line = none) ∧
    (∀ a0 w more, ws = a0 :: w :: more → NotInt w → parseCif line = none) ∧
    (∀ a0 s0 v0, IntText s0 v0 → InInt v0 →
      (ws = [a0, s0] → parseCif line = none) ∧
      (∀ a1, ws = [a0, s0, a1] → parseCif line = none) ∧
      (∀ a1 w more, ws = a0 :: s0 :: a1 :: w :: more → NotInt w → parseCif line = none) ∧
      (∀ a1 s1 v1, IntText s1 v1 → InInt v1 →
        (ws = [a0, s0, a1, s1] → parseCif line = none) ∧
        (∀ w more, ws = a0 :: s0 :: a1 :: s1 :: w :: more → NotDouble w → parseCif line = none) ∧
        (∀ r ro, DecText r ro → InDouble ro →
          (ws = [a0, s0, a1, s1, r] → parseCif line = none) ∧
          (∀ w more, ws = a0 :: s0 :: a1 :: s1 :: r :: w :: more → NotDouble w → parseCif line = none) ∧
          (∀ bt b, DecText bt b → InDouble b → ws = [a0, s0, a1, s1, r, bt] → parseCif line = none)))) := by
  have hb := before_open ht
  refine ⟨?_, ?_, ?_⟩
  · rintro a0 (rfl | rfl)
    · obtain ⟨e1, f1, b1⟩ := before_word hb []
      unfold parseCif
      dsimp only
      rw [f1, pair_none (before_end b1 []).1]
      rfl
    · unfold parseCif
      dsimp only
      rw [(before_end hb []).2.2]
      rfl
  · rintro a0 w more rfl hn
    obtain ⟨e1, f1, b1⟩ := before_word hb []
    unfold parseCif
    dsimp only
    rw [f1, pair_none (before_notInt b1 hn)]
    rfl
  · intro a0 s0 v0 i0 in0
    refine ⟨?_, ?_, ?_, ?_⟩
    · rintro rfl
      obtain ⟨e1, f1, b1⟩ := before_word hb []
      obtain ⟨fp1, g1, b2⟩ := before_int b1 i0 in0
      unfold parseCif
      dsimp only
      rw [f1, g1]
      dsimp only
      rw [(before_end b2 []).2.2]
      rfl
    · rintro a1 rfl
      obtain ⟨e1, f1, b1⟩ := before_word hb []
      obtain ⟨fp1, g1, b2⟩ := before_int b1 i0 in0
      obtain ⟨e2, f2, b3⟩ := before_word b2 []
      unfold parseCif
      dsimp only
      rw [f1, g1]
      dsimp only
      rw [f2, pair_none (before_end b3 []).1]
      rfl
    · rintro a1 w more rfl hn
      obtain ⟨e1, f1, b1⟩ := before_word hb []
      obtain ⟨fp1, g1, b2⟩ := before_int b1 i0 in0
      obtain ⟨e2, f2, b3⟩ := before_word b2 []
      unfold parseCif
      dsimp only
      rw [f1, g1]
      dsimp only
      rw [f2, pair_none (before_notInt b3 hn)]
      rfl
    · intro a1 s1 v1 i1 in1
      refine ⟨?_, ?_, ?_⟩
      · rintro rfl
        obtain ⟨e1, f1, b1⟩ := before_word hb []
        obtain ⟨fp1, g1, b2⟩ := before_int b1 i0 in0
        obtain ⟨e2, f2, b3⟩ := before_word b2 []
        obtain ⟨fp2, g2, b4⟩ := before_int b3 i1 in1
        unfold parseCif
        dsimp only
        rw [f1, g1]
        dsimp only
        rw [f2, g2]
        dsimp only
        rw [pair_none (before_end b4 []).2.1]
        rfl
      · rintro w more rfl hn
        obtain ⟨e1, f1, b1⟩ := before_word hb []
        obtain ⟨fp1, g1, b2⟩ := before_int b1 i0 in0
        obtain ⟨e2, f2, b3⟩ := before_word b2 []
        obtain ⟨fp2, g2, b4⟩ := before_int b3 i1 in1
        unfold parseCif
        dsimp only
        rw [f1, g1]
        dsimp only
        rw [f2, g2]
        dsimp only
        rw [pair_none (before_notDouble b4 hn)]
        rfl
      · intro r ro d0 inro
        refine ⟨?_, ?_, ?_⟩
        · rintro rfl
          obtain ⟨e1, f1, b1⟩ := before_word hb []
          obtain ⟨fp1, g1, b2⟩ := before_int b1 i0 in0
          obtain ⟨e2, f2, b3⟩ := before_word b2 []
          obtain ⟨fp2, g2, b4⟩ := before_int b3 i1 in1
          obtain ⟨fp3, g3, b5⟩ := before_double b4 d0 inro
          unfold parseCif
          dsimp only
          rw [f1, g1]
          dsimp only
          rw [f2, g2]
          dsimp only
          rw [g3]
          dsimp only
          rw [pair_none (before_end b5 []).2.1]
          rfl
        · rintro w more rfl hn
          obtain ⟨e1, f1, b1⟩ := before_word hb []
          obtain ⟨fp1, g1, b2⟩ := before_int b1 i0 in0
          obtain ⟨e2, f2, b3⟩ := before_word b2 []
          obtain ⟨fp2, g2, b4⟩ := before_int b3 i1 in1
          obtain ⟨fp3, g3, b5⟩ := before_double b4 d0 inro
          unfold parseCif
          dsimp only
          rw [f1, g1]
          dsimp only
          rw [f2, g2]
          dsimp only
          rw [g3]
          dsimp only
          rw [pair_none (before_notDouble b5 hn)]
          rfl
        · rintro bt b d1 inb rfl
          obtain ⟨e1, f1, b1⟩ := before_word hb []
          obtain ⟨fp1, g1, b2⟩ := before_int b1 i0 in0
          obtain ⟨e2, f2, b3⟩ := before_word b2 []
          obtain ⟨fp2, g2, b4⟩ := before_int b3 i1 in1
          obtain ⟨fp3, g3, b5⟩ := before_double b4 d0 inro
          obtain ⟨fp4, g4, b6⟩ := before_double b5 d1 inb
          unfold parseCif
          dsimp only
          rw [f1, g1]
          dsimp only
          rw [f2, g2]
          dsimp only
          rw [g3]
          dsimp only
          rw [g4]
          dsimp only
          rw [(before_end b6 []).2.2]
          rfl

/-- **C81**: `setFromCifLine` sets the parameter that the line describes, or throws and changes nothing; it throws for a line without words. -/
theorem setFromCifLine_spec (p q : Param) (line : Str) :
    (CifText line q → setFromCifLine p line = (q, false)) ∧
    ((setFromCifLine p line).2 = true → (setFromCifLine p line).1 = p) ∧
    ((∀ c ∈ line, isSpace c = true) → setFromCifLine p line = (p, true)) := by
  refine ⟨fun h => ?_, ?_, fun h => ?_⟩
  · unfold setFromCifLine
    rw [cif_line h]
  · unfold setFromCifLine
    cases parseCif line with
    | none => intro _; rfl
    | some q => intro h; cases h
  · have hd : line.dropWhile isSpace = [] := by simpa using dropWhile_gap line [] h (by simp)
    have hgw : (getword (openStream line) []).1.fail = true := by
      unfold getword openStream
      simp [hd]
    have hp : parseCif line = none := by
      unfold parseCif
      dsimp only
      rw [if_pos hgw]
    unfold setFromCifLine
    rw [hp]

/-! ### The file -/

theorem fits_blank {r : Reader} (h : Fits r) : r.isblank = true ↔ ∀ c ∈ r.line, isSpace c = true :=
  (classify_words r h.1 (by rw [h.2]; simp) (by rw [h.2]; decide)).1

theorem fits_mark {r : Reader} (h : Fits r) :
    (r.wcount ≠ 0 ∧ r.words.head? = some "_valence_param_B".toList) ↔ ∃ ws, Tokens r.line (mark :: ws) := by
  have ht := words_spec r.line
  rw [← h.1] at ht
  constructor
  · rintro ⟨-, h2⟩
    cases hw : r.words with
    | nil => rw [hw] at h2; cases h2
    | cons w ws =>
      rw [hw] at h2 ht
      simp only [List.head?_cons, Option.some.injEq] at h2
      subst h2
      exact ⟨ws, ht⟩
  · rintro ⟨ws, h2⟩
    have := tokens_unique _ _ _ ht h2
    refine ⟨?_, ?_⟩
    · unfold Reader.wcount; rw [this]; simp
    · rw [this]; rfl

theorem findMark_skip (rs1 : List Reader) (m : Reader) (rs2 : List Reader) (hf : ∀ r ∈ rs1, Fits r) (hm : Fits m)
    (h1 : ∀ r ∈ rs1, ¬ ∃ ws, Tokens r.line (mark :: ws)) (h2 : ∃ ws, Tokens m.line (mark :: ws)) :
    findMark (rs1 ++ m :: rs2) = rs2 := by
  induction rs1 with
  | nil => rw [List.nil_append, findMark, if_pos ((fits_mark hm).2 h2)]
  | cons r rs1 ih =>
    rw [List.cons_append, findMark, if_neg, ih (fun r hr => hf r (List.mem_cons_of_mem _ hr))
      fun r hr => h1 r (List.mem_cons_of_mem _ hr)]
    intro h
    exact h1 r (by simp) ((fits_mark (hf r (by simp))).1 h)

theorem findBlank_skip (rs1 : List Reader) (m : Reader) (rs2 : List Reader) (hf : ∀ r ∈ rs1, Fits r) (hm : Fits m)
    (h1 : ∀ r ∈ rs1, ¬ ∀ c ∈ r.line, isSpace c = true) (h2 : ∀ c ∈ m.line, isSpace c = true) :
    findBlank (rs1 ++ m :: rs2) = rs2 := by
  induction rs1 with
  | nil => rw [List.nil_append, findBlank, if_pos ((fits_blank hm).2 h2)]
  | cons r rs1 ih =>
    rw [List.cons_append, findBlank, if_neg, ih (fun r hr => hf r (List.mem_cons_of_mem _ hr))
      fun r hr => h1 r (List.mem_cons_of_mem _ hr)]
    intro h
    exact h1 r (by simp) ((fits_blank (hf r (by simp))).1 h)

theorem find_insertBV (t : SetBV ℚ) (p : Param) (k : Key) :
    find (insertBV t p) k = match find t k with | some x => some x | none => if k = p.1 then some p.2 else none := by
  unfold insertBV
  cases hp : find t p.1 with
  | some y =>
    dsimp only
    cases hk : find t k with
    | some x => rfl
    | none =>
      dsimp only
      rw [if_neg]
      rintro rfl
      rw [hp] at hk; cases hk
  | none =>
    dsimp only
    rw [find]
    by_cases h : p.1 = k
    · subst h; rw [if_pos rfl, hp]; simp
    · rw [if_neg h, if_neg fun e => h e.symm]
      cases find t k <;> rfl

/-- The lines of data: `none` for an ignored line, otherwise its parameter. -/
def DataLine (line : Str) (o : Option Param) : Prop :=
  (o = none ∧ Ignored line) ∨ ∃ p, o = some p ∧ ¬ Ignored line ∧ CifText line p

theorem dataLoop_good (rs : List Reader) : ∀ (ps : List (Option Param)) (t : SetBV ℚ) (more : List Reader),
    (∀ r ∈ rs, Fits r) → List.Forall₂ DataLine (rs.map (·.line)) ps →
    ∃ t', dataLoop (rs ++ more) t = dataLoop more t' ∧
      ∀ k, find t' k = match find t k with | some x => some x | none => find (ps.filterMap fun o => o) k := by
  induction rs with
  | nil =>
    intro ps t more _ h
    cases h
    refine ⟨t, rfl, fun k => ?_⟩
    cases find t k <;> rfl
  | cons r rs ih =>
    intro ps t more hf h
    rw [List.map_cons] at h
    cases h with
    | @cons _ o _ ps h1 h2 =>
      have hfr := hf r (by simp)
      have hf' := fun r hr => hf r (List.mem_cons_of_mem _ hr)
      rcases h1 with ⟨rfl, hi⟩ | ⟨p, rfl, hi, hc⟩
      · obtain ⟨t', e, hk⟩ := ih ps t more hf' h2
        refine ⟨t', ?_, ?_⟩
        · rw [List.cons_append, dataLoop, if_pos ((fits_ignored hfr).2 hi), e]
        · simpa using hk
      · obtain ⟨t', e, hk⟩ := ih ps (insertBV t p) more hf' h2
        refine ⟨t', ?_, ?_⟩
        · rw [List.cons_append, dataLoop, if_neg fun h => hi ((fits_ignored hfr).1 h), cif_line hc]
          exact e
        · intro k
          rw [hk k, find_insertBV]
          cases ht : find t k with
          | some x => rfl
          | none =>
            dsimp only
            rw [show (some p :: ps).filterMap (fun o => o) = p :: ps.filterMap (fun o => o) from rfl, find]
            by_cases h : k = p.1
            · subst h; simp
            · rw [if_neg h, if_neg fun e => h e.symm]

/-- The layout of the file: header lines, the line with the mark, more lines, an empty line, data. -/
structure Layout (text : Str) (header more data : List Str) : Prop where
  lines : ∃ m blank, Fields '\n' text (header ++ m :: (more ++ blank :: data)) ∧ (∃ ws, Tokens m (mark :: ws)) ∧
    ∀ c ∈ blank, isSpace c = true
  header : ∀ l ∈ header, ¬ ∃ ws, Tokens l (mark :: ws)
  more : ∀ l ∈ more, ¬ ∀ c ∈ l, isSpace c = true

/-- The lines that the data loop gets. -/
theorem layout_data {text : Str} {header more data : List Str} (h : Layout text header more data) :
    ∃ rs, findBlank (findMark (readAll (openStream text) new)) = rs ∧ rs.map (·.line) = data ∧ ∀ r ∈ rs, Fits r := by
  obtain ⟨⟨m, blank, hl, hm, hb⟩, hh, hmo⟩ := h
  obtain ⟨rs, e, hlines, hfit⟩ := readers text _ hl
  obtain ⟨rh, rest, rfl, eh, erest⟩ := List.map_eq_append_iff.1 hlines
  obtain ⟨rm, rest2, rfl, em, erest2⟩ := List.map_eq_cons_iff.1 erest
  obtain ⟨rmo, rest3, rfl, emo, erest3⟩ := List.map_eq_append_iff.1 erest2
  obtain ⟨rb, rd, rfl, eb, ed⟩ := List.map_eq_cons_iff.1 erest3
  refine ⟨rd, ?_, ed, fun r hr => hfit r (by simp [hr])⟩
  rw [e, findMark_skip rh rm _ (fun r hr => hfit r (by simp [hr])) (hfit rm (by simp)), 
    findBlank_skip rmo rb _ (fun r hr => hfit r (by simp [hr])) (hfit rb (by simp))]
  · intro r hr
    exact hmo r.line (emo ▸ List.mem_map.2 ⟨r, hr, rfl⟩)
  · rw [eb]; exact hb
  · intro r hr
    exact hh r.line (eh ▸ List.mem_map.2 ⟨r, hr, rfl⟩)
  · rw [em]; exact hm

/-- **C81**: the standard table has exactly the parameters on the data lines of the file; of several lines for the same
atoms and valences the first counts. -/
theorem standard_table (text : Str) (header more data : List Str) (ps : List (Option Param))
    (hl : Layout text header more data) (hd : List.Forall₂ DataLine data ps) :
    ∃ t, standardSet (some text) none = (some t, some t) ∧ ∀ k, find t k = find (ps.filterMap fun o => o) k := by
  obtain ⟨rs, e, hlines, hfit⟩ := layout_data hl
  subst hlines
  obtain ⟨t, e2, hk⟩ := dataLoop_good rs ps [] [] hfit hd
  rw [List.append_nil] at e2
  refine ⟨t, ?_, fun k => ?_⟩
  · unfold standardSet
    dsimp only
    rw [e, e2]
    rfl
  · rw [hk k]; rfl

/-- **C81**: every parameter of the file is found, unless the user has set another one, if no atoms and valences occur
twice; and what is found without custom entries is in the file. -/
theorem file_entry_found (text : Str) (header more data : List Str) (ps : List (Option Param))
    (hl : Layout text header more data) (hd : List.Forall₂ DataLine data ps)
    (hn : (keys (ps.filterMap fun o => o)).Nodup) :
    ∃ t, standardSet (some text) none = (some t, some t) ∧
      (∀ p, some p ∈ ps → ∀ u : BV.Table ℚ, find u.custom p.1 = none → lookupKey t u p.1 = some p) ∧
      (∀ k q, ∀ u : BV.Table ℚ, u.custom = [] → lookupKey t u k = some q → some q ∈ ps) := by
  obtain ⟨t, e, hk⟩ := standard_table text header more data ps hl hd
  refine ⟨t, e, ?_, ?_⟩
  · intro p hp u hu
    have : find t p.1 = some p.2 := by
      rw [hk, find_eq_some_iff hn]
      exact List.mem_filterMap.2 ⟨some p, hp, rfl⟩
    unfold lookupKey
    rw [hu, this]
  · intro k q u hu h
    have hmem : ∀ k x, find t k = some x → some (k, x) ∈ ps := by
      intro k x hx
      rw [hk, find_eq_some_iff hn] at hx
      obtain ⟨o, ho, e⟩ := List.mem_filterMap.1 hx
      rw [← e]; exact ho
    unfold lookupKey at h
    rw [hu] at h
    cases h1 : find t k with
    | some x => rw [h1] at h; cases h; exact hmem k x h1
    | none =>
      rw [h1] at h
      simp only [find] at h
      split at h
      · cases h
      · cases h2 : find t { k with v0 := 9 } with
        | some x => rw [h2] at h; cases h; exact hmem _ x h2
        | none => rw [h2] at h; cases h

/-- **C81**: once loaded the table stays. -/
theorem table_stays (text : Str) (file : Option Str) (t : SetBV ℚ) (h : (standardSet (some text) none).2 = some t) :
    standardSet file (standardSet (some text) none).1 = (some t, some t) := by
  have : (standardSet (some text) none).1 = some t := by
    unfold standardSet at h ⊢
    dsimp only at h ⊢
    split at h
    · exact h
    · cases h
  rw [this]; rfl

/-! ### What goes wrong -/

/-- A line that cannot be read stops the load with an exception, but the next call returns the part read before it
without complaint. -/
theorem failed_load_bug (text : Str) (header more data1 : List Str) (bad : Str) (data2 : List Str)
    (ps : List (Option Param)) (hl : Layout text header more (data1 ++ bad :: data2))
    (hd : List.Forall₂ DataLine data1 ps) (hb : ¬ Ignored bad) (hp : parseCif bad = none) :
    ∃ t, standardSet (some text) none = (some t, none) ∧ (∀ k, find t k = find (ps.filterMap fun o => o) k) ∧
      ∀ file, standardSet file (some t) = (some t, some t) := by
  obtain ⟨rs, e, hlines, hfit⟩ := layout_data hl
  obtain ⟨rs1, rest, rfl, e1, erest⟩ := List.map_eq_append_iff.1 hlines
  obtain ⟨rb, rs2, rfl, eb, ed⟩ := List.map_eq_cons_iff.1 erest
  subst e1
  obtain ⟨t, e2, hk⟩ := dataLoop_good rs1 ps [] (rb :: rs2) (fun r hr => hfit r (by simp [hr])) hd
  have hrb : Fits rb := hfit rb (by simp)
  refine ⟨t, ?_, fun k => by rw [hk k]; rfl, fun _ => rfl⟩
  have hbad : dataLoop (rb :: rs2) t = (t, false) := by
    rw [dataLoop, if_neg fun h => hb (eb ▸ (fits_ignored hrb).1 h), eb, hp]
  unfold standardSet
  dsimp only
  rw [e, e2, hbad]
  rfl

/-- When the file cannot be found or opened the first call throws, and from then on the table is empty. -/
theorem missing_file_bug : standardSet none none = (some [], none) ∧
    ∀ file, standardSet file (some []) = (some [], some []) := ⟨rfl, fun _ => rfl⟩

/-- A file without the mark gives an empty table and no exception. -/
theorem no_mark_bug (text : Str) (L : List Str) (hl : Fields '\n' text L) (hm : ∀ l ∈ L, ¬ ∃ ws, Tokens l (mark :: ws)) :
    standardSet (some text) none = (some [], some []) := by
  obtain ⟨rs, e, hlines, hfit⟩ := readers text _ hl
  have : ∀ rs : List Reader, (∀ r ∈ rs, Fits r) → (∀ r ∈ rs, ¬ ∃ ws, Tokens r.line (mark :: ws)) → findMark rs = [] := by
    intro rs
    induction rs with
    | nil => intro _ _; rfl
    | cons r rs ih =>
      intro h1 h2
      rw [findMark, if_neg fun h => h2 r (by simp) ((fits_mark (h1 r (by simp))).1 h)]
      exact ih (fun r hr => h1 r (List.mem_cons_of_mem _ hr)) fun r hr => h2 r (List.mem_cons_of_mem _ hr)
  unfold standardSet
  dsimp only
  rw [e, this rs hfit fun r hr => hm r.line (hlines ▸ List.mem_map.2 ⟨r, hr, rfl⟩)]
  rfl

/-- A valence that runs into the next atom is not noticed. -/
theorem glued_words_accepted_bug :
    (parseCif "Ac 3O -2 2.24 0.37 b".toList).map Prod.fst = some ⟨['A', 'c'], 3, ['O'], -2⟩ := by decide +kernel

/-- A line of the file of the library. -/
example : CifText "Ac 3   O  -2    2.24     0.37     b   ?".toList
    (⟨['A', 'c'], 3, ['O'], -2⟩, ⟨Double.fl64 (224 / 100), Double.fl64 (37 / 100), ['b']⟩) := by
  have hw := words_spec "Ac 3   O  -2    2.24     0.37     b   ?".toList
  refine ⟨_, "Ac".toList, 3, "O".toList, -2, 224 / 100, 37 / 100, "b".toList, hw, ⟨⟨"3".toList, "-2".toList,
    "2.24".toList, "0.37".toList, ["?".toList], by decide +kernel, ⟨"3".toList, by decide, by decide, Or.inl (by decide)⟩,
    ⟨"2".toList, by decide, by decide, Or.inr (by decide)⟩, ?_, ?_⟩, by unfold InInt; decide, by unfold InInt; decide, by unfold InDouble; decide +kernel,
    by unfold InDouble; decide +kernel⟩, rfl, Or.inl (by decide)⟩
  · exact ⟨[], "2".toList, ".24".toList, "24".toList, [], 1, 0, by decide, Or.inl ⟨Or.inl rfl, rfl⟩, by decide, by decide,
      Or.inr rfl, Or.inl ⟨rfl, rfl⟩, by decide +kernel⟩
  · exact ⟨[], "0".toList, ".37".toList, "37".toList, [], 1, 0, by decide, Or.inl ⟨Or.inl rfl, rfl⟩, by decide, by decide,
      Or.inr rfl, Or.inl ⟨rfl, rfl⟩, by decide +kernel⟩

/-- The layout of a small file. -/
example : Layout "loop_\n _valence_param_B\n _valence_param_ref_id\n \nAc 3 O -2 2.5 0.5 b ?\n".toList ["loop_".toList]
    [" _valence_param_ref_id".toList] ["Ac 3 O -2 2.5 0.5 b ?".toList] := by
  refine ⟨⟨" _valence_param_B".toList, " ".toList, ⟨by decide, Or.inl (by decide)⟩, ⟨[], ?_⟩, by decide⟩, ?_, ?_⟩
  · have h := words_spec " _valence_param_B".toList
    have e : parseWords [] " _valence_param_B".toList = [mark] := by decide +kernel
    rw [e] at h; exact h
  · intro l hl
    rw [List.mem_singleton.1 hl]
    rintro ⟨ws, h⟩
    have h2 := tokens_unique _ _ _ h (words_spec "loop_".toList)
    have e : parseWords [] "loop_".toList = ["loop_".toList] := by decide +kernel
    rw [e] at h2
    exact absurd (List.cons.inj h2).1 (by decide)
  · intro l hl
    rw [List.mem_singleton.1 hl]
    decide

/-- A small file. -/
example : standardSet (some "loop_\n _valence_param_B\n _valence_param_ref_id\n\nAc 3 O -2 2.5 0.5 b ?\n# comment\nO -2 Na 1 1.75 0.25 a".toList)
    none = (some [(⟨['N', 'a'], 1, ['O'], -2⟩, ⟨7 / 4, 1 / 4, ['a']⟩), (⟨['A', 'c'], 3, ['O'], -2⟩, ⟨5 / 2, 1 / 2, ['b']⟩)],
      some [(⟨['N', 'a'], 1, ['O'], -2⟩, ⟨7 / 4, 1 / 4, ['a']⟩), (⟨['A', 'c'], 3, ['O'], -2⟩, ⟨5 / 2, 1 / 2, ['b']⟩)]) := by
  decide +kernel

end Verif.BVFile
