import Verif.Props.Input
import Verif.Props.ScatteringData
/-! C67, C68, C81: the tables of X-ray formulas and neutron lengths loaded from the text of their files. -/
namespace Verif.ScatData
open Verif.LineReader Verif.AtomUtils Verif.AssocMap Verif.Input

/-! ### Specification: X-ray formulas -/

/-- After white space the line starts with `m`. -/
def Starts (m line : Str) : Prop := m <+: line.dropWhile isSpace

/-- Neither a `#S` nor a `#L` line. -/
def Other (line : Str) : Prop := ¬ Starts ['#', 'S'] line ∧ ¬ Starts ['#', 'L'] line

/-- A formula as written in the file: symbol, a1 … a5, c and b1 … b5. -/
structure Written where
  symbol : Str
  a : List ℚ
  c : ℚ
  b : List ℚ

/-- The lines of a file and the formulas written there: for each a line `#S number symbol`, later a line `#L` and after it the line with
a1 … a5, c, b1 … b5. -/
inductive WKText : List Str → List Written → Prop
  | done (post : List Str) : (∀ l ∈ post, Other l) → WKText post []
  | block (pre mid rest more : List Str) (s l d w0 w1 : Str) (ws : List Str) (w : Written) (es : List Written) :
      (∀ l ∈ pre, Other l) → Starts ['#', 'S'] s → Tokens s (w0 :: w1 :: w.symbol :: more) → (∀ l ∈ mid, Other l) →
      Starts ['#', 'L'] l → Tokens d ws → w.a.length = 5 → w.b.length = 5 → List.Forall₂ DecText ws (w.a ++ w.c :: w.b) →
      (∀ q ∈ w.a ++ w.c :: w.b, |Double.fl64 q| < 2 ^ 1024) → WKText rest es → WKText (pre ++ s :: (mid ++ l :: d :: rest)) (w :: es)

/-- The formula with the doubles nearest to the numbers written. -/
def Written.formula (w : Written) : WK ℚ := ⟨w.a.map Double.fl64, w.b.map Double.fl64, Double.fl64 w.c⟩

/-! ### Proof -/

theorem tokens_words {r : Reader} (h : Fits r) {ws : List Str} (ht : Tokens r.line ws) : r.words = ws := by
  rw [h.1]; exact tokens_unique _ _ _ (words_spec _) ht

theorem marked_iff (m : String) (hm : ∀ c ∈ m.toList, isSpace c = false) (x : Char) (he : m.toList = ['#', x]) (r : Reader) (h : Fits r) :
    marked m r = true ↔ Starts m.toList r.line := by
  have hc := classify_words r h.1 (by rw [h.2]; simp) (by rw [h.2]; decide)
  unfold marked
  rw [Bool.and_eq_true, hc.2.1, h.2, beq_iff_eq, he]
  have ht := words_spec r.line
  rw [← h.1] at ht
  unfold Starts
  cases hw : r.words with
  | nil =>
    rw [hw] at ht
    have hsp := tokens_nil ht
    have : r.line.dropWhile isSpace = [] := by
      have := dropWhile_gap r.line [] hsp (by simp)
      simpa using this
    rw [this]
    simp
  | cons w ws =>
    rw [hw] at ht
    obtain ⟨rest, e, hne, hwc, hrest⟩ := head_word ht
    rw [e]
    have key : ['#', x] <+: w ++ rest ↔ ['#', x] <+: w := 
      (prefix_cut ['#', x] w rest isSpace (by rw [← he]; exact hm) hrest)
    rw [key]
    simp only [List.headD_cons]
    have ht2 : w.take 2 = ['#', x] ↔ ['#', x] <+: w := by
      have := take_eq_iff w ['#', x]
      simpa using this
    rw [ht2]
    refine ⟨fun h => h.2, fun h => ⟨?_, h⟩⟩
    obtain ⟨t, ht⟩ := h
    exact ⟨x :: t ++ rest, by rw [← ht]; simp⟩

theorem plain_of {rs : List Reader} (h : ∀ r ∈ rs, Fits r) (ho : ∀ l ∈ rs.map (·.line), Other l) : Plain rs := by
  intro r hr
  have := ho r.line (List.mem_map_of_mem hr)
  constructor
  · rw [← Bool.not_eq_true]; exact fun hm => this.1 ((marked_iff "#S" (by decide) 'S' rfl r (h r hr)).1 hm)
  · rw [← Bool.not_eq_true]; exact fun hm => this.2 ((marked_iff "#L" (by decide) 'L' rfl r (h r hr)).1 hm)

theorem blocks_of (L : List Str) (es : List Written) (h : WKText L es) : ∀ rs : List Reader, rs.map (·.line) = L → (∀ r ∈ rs, Fits r) →
    ∃ (ks : List (Block ℚ)) (post : List Reader), rs = ks.flatMap Block.lines ++ post ∧ (∀ k ∈ ks, k.Ok wkLine) ∧ Plain post ∧
      ks.map Block.entry = es.map fun w => (w.symbol, w.formula) := by
  induction h with
  | done post ho =>
    intro rs e hf
    exact ⟨[], rs, rfl, by simp, plain_of hf (by rw [e]; exact ho), rfl⟩
  | block pre mid rest more s l d w0 w1 ws w es h1 h2 h3 h4 h5 h6 h7 h8 h9 h10 h11 ih =>
    intro rs e hf
    obtain ⟨rpre, q1, rfl, e1, e2⟩ := List.map_eq_append_iff.1 e
    obtain ⟨rsS, q2, rfl, e3, e4⟩ := List.map_eq_cons_iff.1 e2
    obtain ⟨rmid, q3, rfl, e5, e6⟩ := List.map_eq_append_iff.1 e4
    obtain ⟨rl, q4, rfl, e7, e8⟩ := List.map_eq_cons_iff.1 e6
    obtain ⟨rd, rrest, rfl, e9, e10⟩ := List.map_eq_cons_iff.1 e8
    obtain ⟨ks, post, hr, hk, hp, he⟩ := ih rrest e10 fun r hr => hf r (by simp [hr])
    have fS := hf rsS (by simp)
    have fL := hf rl (by simp)
    have fd := hf rd (by simp)
    have hlen : ws.length = 11 := by rw [h9.length_eq]; simp [h7, h8]
    have hsym : w.symbol ≠ [] := by
      have hall : ∀ {s : Str} {ws : List Str}, Tokens s ws → ∀ w ∈ ws, w ≠ [] := by
        intro s ws h
        induction h with
        | blank => simp
        | word g w rest ws hg hw hne hr ht ih =>
          intro x hx
          rcases List.mem_cons.1 hx with rfl | hx
          · exact hne
          · exact ih x hx
      exact hall h3 _ (by simp)
    let k : Block ℚ := ⟨rpre, rsS, rmid, rl, rd, w.symbol, (w.a ++ w.c :: w.b).map Double.fl64⟩
    refine ⟨k :: ks, post, ?_, ?_, hp, ?_⟩
    · rw [hr]; simp [k, Block.lines]
    · intro x hx
      rcases List.mem_cons.1 hx with rfl | hx
      · refine ⟨plain_of (fun r hr => hf r (by simp only [k] at hr; simp [hr])) (by simp only [k]; rw [e1]; exact h1),
          plain_of (fun r hr => hf r (by simp only [k] at hr; simp [hr])) (by simp only [k]; rw [e5]; exact h4), ?_, ?_, ?_, hsym, ?_, ?_⟩
        · exact (marked_iff "#S" (by decide) 'S' rfl rsS fS).2 (by rw [e3]; exact h2)
        · exact (marked_iff "#L" (by decide) 'L' rfl rl fL).2 (by rw [e7]; exact h5)
        · simp only [k]; rw [tokens_words fS (by rw [e3]; exact h3)]; rfl
        · simp only [k]; rw [tokens_words fd (by rw [e9]; exact h6)]; exact hlen
        · simp only [k]; rw [e9]; exact wk_line d ws _ hlen h6 h9 h10
      · exact hk x hx
    · rw [List.map_cons, List.map_cons, he]
      congr 1
      have hf' : WK.fill ((w.a ++ w.c :: w.b).map Double.fl64) = w.formula := by
        unfold WK.fill Written.formula
        rw [List.map_append, List.map_cons]
        have hl : (w.a.map Double.fl64).length = 5 := by simpa using h7
        have hb : (w.b.map Double.fl64).length = 5 := by simpa using h8
        have t1 : (w.a.map Double.fl64 ++ Double.fl64 w.c :: w.b.map Double.fl64).take 5 = w.a.map Double.fl64 := by
          rw [← hl]; exact List.take_left
        have t2 : (w.a.map Double.fl64 ++ Double.fl64 w.c :: w.b.map Double.fl64).drop 6 = w.b.map Double.fl64 := by
          rw [show 6 = (w.a.map Double.fl64).length + 1 by rw [hl], ← List.drop_drop, List.drop_left]; rfl
        have t3 : (w.a.map Double.fl64 ++ Double.fl64 w.c :: w.b.map Double.fl64).getD 5 0 = Double.fl64 w.c := by
          rw [List.getD_eq_getElem?_getD, List.getElem?_append_right (by rw [hl]), hl]; rfl
        rw [t1, t2, t3, List.take_of_length_le (by rw [hb])]
      exact Prod.ext rfl hf'

theorem find_of_nodup {β : Type} (l : List (Str × β)) (h : (l.map Prod.fst).Nodup) (k : Str) (v : β) (hm : (k, v) ∈ l) : find l k = some v := by
  induction l with
  | nil => simp at hm
  | cons p l ih =>
    rw [List.map_cons, List.nodup_cons] at h
    rcases List.mem_cons.1 hm with e | hm
    · subst e; simp [find]
    · have : p.1 ≠ k := fun e => h.1 (e ▸ List.mem_map.2 ⟨(k, v), hm, rfl⟩)
      have ih := ih h.2 hm
      simp only [find] at ih ⊢
      simp [this, ih]

/-- **C67**, **C81**: from the text of a file of formulas with different symbols the set is loaded with the formula of every symbol as written
(numbers rounded to the nearest doubles) and nothing else; with a symbol given twice the load throws. -/
theorem wk_file (text : Str) (L : List Str) (es : List Written) (hL : Fields '\n' text L) (h : WKText L es) :
    ((es.map Written.symbol).Nodup → ∃ t, getWK wkLine text none = (some t, some t) ∧
      (∀ w ∈ es, find t w.symbol = some w.formula) ∧ ∀ q, q ∉ es.map Written.symbol → find t q = none) ∧
    (¬ (es.map Written.symbol).Nodup → (getWK wkLine text none).2 = none) := by
  obtain ⟨rs, e, hlines, hfit⟩ := readers text L hL
  obtain ⟨ks, post, hr, hk, hp, he⟩ := blocks_of L es h rs hlines hfit
  obtain ⟨g1, g2⟩ := load_file wkLine ks hk post hp
  have hsym : ks.map Block.symbol = es.map Written.symbol := by
    have := congrArg (List.map Prod.fst) he
    simpa [List.map_map, Function.comp_def, Block.entry] using this
  rw [hsym, ← hr, ← e] at g1 g2
  constructor
  · intro hn
    obtain ⟨f1, f2⟩ := g1 hn
    refine ⟨(loadWK wkLine (readAll (openStream text) new) [] []).1, ?_, ?_, ?_⟩
    · unfold getWK
      dsimp only
      rw [f1]
      rfl
    · intro w hw
      rw [f2, he]
      refine find_of_nodup _ ?_ _ _ (List.mem_map.2 ⟨w, hw, rfl⟩)
      simpa [List.map_map, Function.comp_def] using hn
    · intro q hq
      rw [f2, he]
      cases hf : find (es.map fun w => (w.symbol, w.formula)) q with
      | none => rfl
      | some x =>
        exfalso
        have : ∃ p ∈ es.map (fun w => (w.symbol, w.formula)), p.1 = q := by
          clear f1 f2 g1 g2 he hsym
          generalize es.map (fun w => (w.symbol, w.formula)) = l at hf ⊢
          induction l with
          | nil => simp [find] at hf
          | cons p l ih =>
            by_cases hp : p.1 = q
            · exact ⟨p, by simp, hp⟩
            · simp only [find, if_neg hp] at hf
              obtain ⟨p', h1, h2⟩ := ih hf
              exact ⟨p', by simp [h1], h2⟩
        obtain ⟨p, hp, hpq⟩ := this
        obtain ⟨w, hw, rfl⟩ := List.mem_map.1 hp
        exact hq (List.mem_map.2 ⟨w, hw, hpq⟩)
  · intro hn
    unfold getWK
    dsimp only
    rw [g2 hn]
    rfl

/-- The formulas as real numbers. -/
def realTable (t : List (Str × WK ℚ)) : List (Str × WK ℝ) :=
  t.map fun p => (p.1, ⟨p.2.a.map fun x : ℚ => (x : ℝ), p.2.b.map fun x : ℚ => (x : ℝ), (p.2.c : ℝ)⟩)

theorem find_map {α β : Type} (f : α → β) (t : List (Str × α)) (q : Str) :
    find (t.map fun p => (p.1, f p.2)) q = (find t q).map f := by
  induction t with
  | nil => rfl
  | cons p t ih =>
    rw [List.map_cons]
    unfold find
    by_cases h : p.1 = q
    · rw [if_pos h, if_pos h]; rfl
    · rw [if_neg h, if_neg h]; exact ih

/-- **C67**: the X-ray factor of a symbol of the file is c + Σ aᵢ exp(-bᵢ (Q/4π)²) with the numbers written there. -/
theorem xray_file (text : Str) (L : List Str) (es : List Written) (hL : Fields '\n' text L) (h : WKText L es)
    (hn : (es.map Written.symbol).Nodup) : ∃ t, getWK wkLine text none = (some t, some t) ∧ ∀ w ∈ es, ∀ q : ℝ,
      fxrayatq (realTable t) w.symbol q = some ((Double.fl64 w.c : ℝ) + ∑ i ∈ Finset.range 5,
        (Double.fl64 (w.a.getD i 0) : ℝ) * Real.exp (-(Double.fl64 (w.b.getD i 0) : ℝ) * (q / (4 * Real.pi)) ^ 2)) := by
  obtain ⟨t, e, ht, -⟩ := (wk_file text L es hL h).1 hn
  refine ⟨t, e, fun w hw q => ?_⟩
  have hlen : w.a.length = 5 ∧ w.b.length = 5 := by
    clear hL hn e ht
    induction h with
    | done => simp at hw
    | block pre mid rest more s l d w0 w1 ws w' es h1 h2 h3 h4 h5 h6 h7 h8 h9 h10 h11 ih =>
      rcases List.mem_cons.1 hw with rfl | hw
      · exact ⟨h7, h8⟩
      · exact ih hw
  unfold fxrayatq fxrayatstol
  have hf : find (realTable t) w.symbol = some ⟨w.formula.a.map fun x : ℚ => (x : ℝ), w.formula.b.map fun x : ℚ => (x : ℝ), (w.formula.c : ℝ)⟩ := by
    have := find_map (fun p : WK ℚ => (⟨p.a.map fun x : ℚ => (x : ℝ), p.b.map fun x : ℚ => (x : ℝ), (p.c : ℝ)⟩ : WK ℝ)) t w.symbol
    unfold realTable
    rw [this, ht w hw]
    rfl
  rw [(findWK_spec (realTable t) w.symbol).1 _ hf, Option.map_some, xray_formula]
  unfold formula
  congr 2
  refine Finset.sum_congr rfl fun i hi => ?_
  rw [Finset.mem_range] at hi
  have g : ∀ l : List ℚ, l.length = 5 → ((l.map Double.fl64).map fun x : ℚ => (x : ℝ)).getD i 0 = ((Double.fl64 (l.getD i 0) : ℚ) : ℝ) := by
    intro l hl
    have h1 : i < l.length := by omega
    rw [List.getD_eq_getElem?_getD, List.getD_eq_getElem?_getD, List.getElem?_map, List.getElem?_map, List.getElem?_eq_getElem h1]
    rfl
  unfold Written.formula
  dsimp only
  rw [g w.a hlen.1, g w.b hlen.2, neg_mul]

/-! ### Specification: neutron scattering lengths -/

/-- `line` has the comma-separated columns of the table, with the isotope `Z-El-A` or element `Z-El` in the first, the concentration or half-life in the
second and the length in the fourth. -/
def BCText (line : Str) (r : Row ℚ) : Prop :=
  ∃ (fs : List Str) (z el g w more : Str) (q : ℚ), Fields ',' line fs ∧ fs.length = 11 ∧
    (∀ c ∈ z, c.isDigit = true) ∧ el ≠ [] ∧ (∀ c ∈ el, c ≠ '-') ∧ (∀ c, el.head? = some c → isoChar c = false) ∧
    ((fs[0]? = some (z ++ ['-'] ++ el) ∧ r.name = el) ∨
      ∃ a, (∀ c ∈ a, c ≠ '-') ∧ fs[0]? = some (z ++ ['-'] ++ el ++ ['-'] ++ a) ∧ r.name = a ++ ['-'] ++ el) ∧
    fs[1]? = some r.chlf ∧ fs[3]? = some (g ++ (w ++ more)) ∧ (∀ c ∈ g, isSpace c = true) ∧ DecText w q ∧ Stops more ∧ |Double.fl64 q| < 2 ^ 1024 ∧ r.bc = Double.fl64 q

/-- A line that is skipped: empty, a comment, or without length. -/
def BCSkip (line : Str) : Prop := line = [] ∨ ['#'] <+: line ∨ ∃ fs, Fields ',' line fs ∧ fs.length = 11 ∧ fs[3]? = some []

/-- No symbol is defined twice: no row has a name that has a value from the rows before, and the only isotope of an element does not follow a row that
gives a value to the element. -/
def NoClash {N : Type} (l : List (Row N)) : Prop :=
  ∀ l1 r l2, l = l1 ++ r :: l2 → value l1 r.name = none ∧
    ∀ el, rowElement r.name = some el → r.chlf = "100".toList → value l1 el = none

/-! ### Proof -/

theorem addRow_ok {N : Type} (l : List (Row N)) (r : Row N) (t : List (Str × N)) (ht : ∀ q, find t q = value l q) :
    (addRow t r.name r.chlf r.bc).isSome = true ↔
      value l r.name = none ∧ ∀ el, rowElement r.name = some el → r.chlf = "100".toList → value l el = none := by
  unfold addRow
  rw [← ht]
  by_cases hn : (find t r.name).isSome = true
  · rw [if_pos hn]
    simp only [Option.isSome_none, Bool.false_eq_true, false_iff, not_and]
    intro h; rw [h] at hn; simp at hn
  · rw [if_neg hn]
    have hnone : find t r.name = none := by simpa using hn
    dsimp only
    cases hel : rowElement r.name with
    | none => simp [hnone]
    | some el =>
      have hne : el ≠ r.name := rowElement_ne _ _ hel
      have hfp : find (put t r.name r.bc) el = find t el := by rw [find_put, if_neg hne]
      dsimp only
      rw [hfp, hnone]
      simp only [Option.some.injEq, forall_eq', true_and]
      rw [← ht]
      by_cases h100 : r.chlf = "100".toList
      · rw [if_pos (Or.inl h100)]
        cases hf : find t el <;> simp [h100]
      · by_cases h2 : (find t el).isNone = true ∧ r.chlf.getLast? = some 'Y'
        · rw [if_pos (Or.inr h2)]
          have : find t el = none := by simpa using h2.1
          simp [this]
        · rw [if_neg (by tauto)]
          simp only [Option.isSome_some, true_iff]
          exact fun h => absurd h h100

theorem addRows_ok {N : Type} (l l0 : List (Row N)) (t : List (Str × N)) (ht : ∀ q, find t q = value l0 q) :
    (addRows l t).isSome = true ↔ ∀ l1 r l2, l = l1 ++ r :: l2 → value (l0 ++ l1) r.name = none ∧
      ∀ el, rowElement r.name = some el → r.chlf = "100".toList → value (l0 ++ l1) el = none := by
  induction l generalizing l0 t with
  | nil => simp [addRows]
  | cons r l ih =>
    unfold addRows
    have hr := addRow_ok l0 r t ht
    cases ha : addRow t r.name r.chlf r.bc with
    | none =>
      rw [ha] at hr
      simp only [Option.bind_none, Option.isSome_none, Bool.false_eq_true, false_iff] at hr ⊢
      intro h
      exact hr (by simpa using h [] r l rfl)
    | some t1 =>
      rw [ha] at hr
      have ht1 := addRow_spec l0 r t t1 ht ha
      rw [Option.bind_some, ih (l0 ++ [r]) t1 ht1]
      constructor
      · intro h l1 r' l2 e
        cases l1 with
        | nil =>
          simp only [List.nil_append, List.cons.injEq] at e
          rw [← e.1, List.append_nil]
          exact hr.1 rfl
        | cons a l1 =>
          simp only [List.cons_append, List.cons.injEq] at e
          have := h l1 r' l2 e.2
          rw [← e.1]
          simpa using this
      · intro h l1 r' l2 e
        have := h (r :: l1) r' l2 (by rw [e]; rfl)
        simpa using this

/-- **C68**: when the load of the table succeeds. -/
theorem bc_ok {N : Type} (parse : Str → Option N) (text : Str) (l : List (Row N))
    (hl : rows parse (readAll (openStream text) bcReader) = l.map some) :
    (getBC parse text).isSome = true ↔ NoClash l ∧ (value l "1-n".toList).isSome = true ∧ (value l "2-H".toList).isSome = true ∧
      (value l "3-H".toList).isSome = true := by
  have hadd := addRows_ok l [] [] (fun q => rfl)
  simp only [List.nil_append] at hadd
  have hal : ∀ t0 : List (Str × N), (aliases t0).isSome = true ↔ (find t0 "1-n".toList).isSome = true ∧ (find t0 "2-H".toList).isSome = true ∧
      (find t0 "3-H".toList).isSome = true := by
    intro t0
    unfold aliases
    cases hn : find t0 "1-n".toList with
    | none => simp
    | some bn =>
      dsimp only [Option.bind_eq_bind, Option.bind_some]
      have hd1 : find (insertNew t0 ['n'] bn) "2-H".toList = find t0 "2-H".toList := by
        rw [find_insertNewN, if_neg (by decide), Option.or_none]
      rw [hd1]
      cases hd : find t0 "2-H".toList with
      | none => simp
      | some bd =>
        dsimp only [Option.bind_some]
        have ht1 : find (insertNew (insertNew t0 ['n'] bn) ['D'] bd) "3-H".toList = find t0 "3-H".toList := by
          rw [find_insertNewN, if_neg (by decide), Option.or_none, find_insertNewN, if_neg (by decide), Option.or_none]
        rw [ht1]
        cases ht : find t0 "3-H".toList <;> simp
  obtain ⟨g1, g2⟩ := loadBC_rows parse (readAll (openStream text) bcReader) []
  unfold getBC
  dsimp only
  cases ha : addRows l ([] : List (Str × N)) with
  | none =>
    rw [ha] at hadd
    have hf : (loadBC parse (readAll (openStream text) bcReader) []).2 = false := by
      rw [← Bool.not_eq_true]
      intro ht
      obtain ⟨l', e1, e2⟩ := g1 _ (Prod.ext rfl ht)
      rw [hl] at e1
      have : l = l' := List.map_injective_iff.2 (Option.some_injective _) e1
      rw [← this, ha] at e2
      cases e2
    rw [hf]
    simp only [Bool.false_eq_true, if_false, Option.isSome_none, false_iff]
    intro h
    simp only [Option.isSome_none, Bool.false_eq_true, false_iff] at hadd
    exact hadd h.1
  | some t0 =>
    rw [ha] at hadd
    have hv := addRows_spec l [] [] t0 (fun q => rfl) ha
    rw [List.nil_append] at hv
    rw [g2 l t0 hl ha]
    dsimp only
    rw [if_pos rfl, hal, hv, hv, hv]
    have : NoClash l := hadd.1 rfl
    tauto

theorem rows_of (L : List Str) (os : List (Option (Row ℚ)))
    (hes : List.Forall₂ (fun line o => (o = none ∧ BCSkip line) ∨ ∃ r, o = some r ∧ line ≠ [] ∧ ¬ ['#'] <+: line ∧ BCText line r) L os) :
    ∀ rs : List Reader, rs.map (·.line) = L → (∀ r ∈ rs, r.words = parseWords [','] r.line ∧ r.commentmark = ['#'] ∧ r.separator = [',']) →
      rows bcField rs = (os.filterMap fun o => o).map some := by
  intro rs
  induction rs generalizing L os with
  | nil => intro e _; subst e; cases hes; rfl
  | cons r rs ih =>
    intro e hf
    subst e
    rw [List.map_cons] at hes
    cases hes with
    | @cons _ o _ os h1 h2 =>
      have ih' := ih _ os h2 rfl fun r hr => hf r (List.mem_cons_of_mem _ hr)
      obtain ⟨f1, f2, f3⟩ := hf r (by simp)
      have hc := classify_fields r ',' f3 (by rw [f3]; exact f1) (by rw [f2]; simp) (by rw [f2]; decide)
      rw [f2] at hc
      have hfs : ∀ fs, Fields ',' r.line fs → r.words = fs := by
        intro fs h
        have := fields_spec ',' r.line []
        rw [f1]
        exact fields_unique _ _ _ _ this h
      have hign : r.isignored = true ↔ r.line = [] ∨ ['#'] <+: r.line := by
        unfold Reader.isignored
        rw [Bool.or_eq_true, hc.2]
        have := hc.1
        unfold Reader.isblank at this
        rw [this]
      unfold rows at ih' ⊢
      rcases h1 with ⟨rfl, hs⟩ | ⟨x, rfl, hn1, hn2, fs, z, el, g, w, more, q, k1, k2, k3, k4, k5, k6, k7, k8, k9, k9t, k10, k10r, k11, k12⟩
      · rw [List.filter_cons, if_neg, ih']
        · rfl
        · rcases hs with h | h | ⟨fs, h, hl, h3⟩
          · simp [hign.2 (Or.inl h)]
          · simp [hign.2 (Or.inr h)]
          · have := hfs fs h
            unfold Reader.wcount
            rw [this, List.getD_eq_getElem?_getD, h3, hl]
            simp
      · have hni : r.isignored = false := by
          rw [← Bool.not_eq_true, hign]; tauto
        generalize hfe : g ++ (w ++ more) = field at k9
        have hw := hfs fs k1
        have hfield : field ≠ [] := by
          rintro rfl
          rw [List.append_eq_nil_iff, List.append_eq_nil_iff] at hfe
          exact (scanDouble_text k10 k10r).2.1 hfe.2.1
        have w3 : r.words.getD 3 [] = field := by rw [hw, List.getD_eq_getElem?_getD, k9]; rfl
        have w1 : r.words.getD 1 [] = x.chlf := by rw [hw, List.getD_eq_getElem?_getD, k8]; rfl
        have hb : bcField field = some x.bc := by rw [k12]; rw [← hfe]; exact bc_field g w more q k9t k10 k10r k11
        have hname : rowName (r.words.getD 0 []) = some x.name := by
          rw [hw, List.getD_eq_getElem?_getD]
          rcases k7 with ⟨e, en⟩ | ⟨a, ha, e, en⟩
          · rw [e, en]; exact (rowName_spec z el [] k3 (by simp) k5 k4 k6).1
          · rw [e, en]; exact (rowName_spec z el a k3 ha k5 k4 k6).2
        have hcount : r.wcount = 11 := by unfold Reader.wcount; rw [hw, k2]
        rw [List.filter_cons, if_pos, List.map_cons, if_pos hcount, ih', hname, w3, hb, w1]
        · rfl
        · rw [hni, w3]
          have : field.isEmpty = false := by simpa using hfield
          rw [this]; simp

/-- **C68**, **C81**: the neutron lengths loaded from the text of a table are those of its rows, rounded to the nearest doubles, with the values for elements and the
names n, D and T of `bc_table`; the load succeeds exactly when no symbol is defined twice and 1-n, 2-H and 3-H have values. -/
theorem bc_file (text : Str) (L : List Str) (os : List (Option (Row ℚ))) (hL : Fields '\n' text L)
    (hes : List.Forall₂ (fun line o => (o = none ∧ BCSkip line) ∨ ∃ r, o = some r ∧ line ≠ [] ∧ ¬ ['#'] <+: line ∧ BCText line r) L os) :
    let l := os.filterMap fun o => o
    ((getBC bcField text).isSome = true ↔ NoClash l ∧ (value l "1-n".toList).isSome = true ∧ (value l "2-H".toList).isSome = true ∧
      (value l "3-H".toList).isSome = true) ∧
    ∀ t, getBC bcField text = some t → (∀ q, q ≠ ['n'] → q ≠ ['D'] → q ≠ ['T'] → find t q = value l q) ∧
      find t ['n'] = (value l ['n']).or (value l "1-n".toList) ∧ find t ['D'] = (value l ['D']).or (value l "2-H".toList) ∧
      find t ['T'] = (value l ['T']).or (value l "3-H".toList) := by
  intro l
  obtain ⟨h1, h2⟩ := reading_spec text bcReader
  have hlines := fields_unique _ _ _ _ h1 hL
  have hr : rows bcField (readAll (openStream text) bcReader) = l.map some := by
    refine rows_of L os hes _ hlines fun r hr => ?_
    obtain ⟨k, hk⟩ := List.mem_iff_getElem?.1 hr
    obtain ⟨-, a, b, c⟩ := h2 k r hk
    exact ⟨c, a, b⟩
  refine ⟨bc_ok bcField text l hr, fun t ht => ?_⟩
  obtain ⟨l', e, a, b, c, d, -⟩ := bc_table bcField text t ht
  rw [hr] at e
  have : l = l' := List.map_injective_iff.2 (Option.some_injective _) e
  subst this
  exact ⟨a, b, c, d⟩

/-! ### Examples -/

deriving instance DecidableEq for WK

/-- A file of two formulas. -/
example : let r := (getWK wkLine "#S 1 H\n#N 11\n#L a1\n.5 1 2 3 4 0.25 6 7 8 9 1e1\n#S 2 He\n#L\n1 1 1 1 1 1 1 1 1 1 1".toList none).2
    r.map (fun t => find t ['H']) = some (some ⟨[1 / 2, 1, 2, 3, 4], [6, 7, 8, 9, 10], 1 / 4⟩) ∧ r.map (fun t => find t ['L']) = some none := by
  decide +kernel

/-- A row of the table of the library. -/
example : BCText "4-Be-9,100,3/2,7.79(1),0.12(3),,,7.63(2),0.0018(9),7.63(2),0.0076(8)".toList
    ⟨"9-Be".toList, "100".toList, Double.fl64 (779 / 100)⟩ := by
  refine ⟨["4-Be-9".toList, "100".toList, "3/2".toList, "7.79(1)".toList, "0.12(3)".toList, [], [], "7.63(2)".toList, "0.0018(9)".toList,
    "7.63(2)".toList, "0.0076(8)".toList], ['4'], ['B', 'e'], [], "7.79".toList, "(1)".toList, 779 / 100, ⟨by decide, Or.inr (by decide)⟩, rfl, by decide,
    by decide, by decide, by decide, Or.inr ⟨['9'], by decide, rfl, rfl⟩, rfl, rfl, by decide, ?_, Or.inr ⟨'(', _, rfl, by decide⟩, by decide +kernel, rfl⟩
  exact ⟨[], ['7'], ".79".toList, "79".toList, [], 1, 0, rfl, Or.inl ⟨Or.inl rfl, rfl⟩, by decide, by decide, Or.inr rfl, Or.inl ⟨rfl, rfl⟩, by decide +kernel⟩

/-- A file of one formula. -/
example : WKText ["#F".toList, "#S 3 Li".toList, "#N".toList, "#L".toList, "1 1 1 1 1 2 3 3 3 3 3".toList, []] [⟨"Li".toList, [1, 1, 1, 1, 1], 2, [3, 3, 3, 3, 3]⟩] := by
  have one : ∀ c : Char, c.isDigit = true → ∀ v : ℕ, decimal [c] = v → DecText [c] v := fun c hc v hv =>
    ⟨[], [c], [], [], [], 1, 0, rfl, Or.inl ⟨Or.inl rfl, rfl⟩, by simpa using hc, by simp, Or.inl ⟨rfl, rfl⟩, Or.inl ⟨rfl, rfl⟩, by simp [hv]⟩
  have h1 : DecText ['1'] 1 := by simpa using one '1' (by decide) 1 (by decide)
  have h2 : DecText ['2'] 2 := by simpa using one '2' (by decide) 2 (by decide)
  have h3 : DecText ['3'] 3 := by simpa using one '3' (by decide) 3 (by decide)
  have hS : Tokens "#S 3 Li".toList ["#S".toList, ['3'], "Li".toList] := by
    have := words_spec "#S 3 Li".toList
    rwa [show parseWords [] "#S 3 Li".toList = ["#S".toList, ['3'], "Li".toList] by decide +kernel] at this
  have e := WKText.block ["#F".toList] ["#N".toList] [[]] [] "#S 3 Li".toList "#L".toList "1 1 1 1 1 2 3 3 3 3 3".toList "#S".toList ['3']
    (parseWords [] "1 1 1 1 1 2 3 3 3 3 3".toList) ⟨"Li".toList, [1, 1, 1, 1, 1], 2, [3, 3, 3, 3, 3]⟩ []
    (by unfold Other Starts; decide) (by unfold Starts; decide) hS (by unfold Other Starts; decide) (by unfold Starts; decide)
    (words_spec _) rfl rfl ?_ (by decide +kernel) (WKText.done [[]] (by unfold Other Starts; decide))
  · exact e
  · have : parseWords [] "1 1 1 1 1 2 3 3 3 3 3".toList = [['1'], ['1'], ['1'], ['1'], ['1'], ['2'], ['3'], ['3'], ['3'], ['3'], ['3']] := by decide +kernel
    rw [this]
    exact .cons h1 (.cons h1 (.cons h1 (.cons h1 (.cons h1 (.cons h2 (.cons h3 (.cons h3 (.cons h3 (.cons h3 (.cons h3 .nil))))))))))

end Verif.ScatData
