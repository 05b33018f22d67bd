import Verif.Model.Input
import Verif.Props.LineReader
import Mathlib.Data.Nat.Digits.Defs
import Mathlib.Tactic.Ring
/-! C81: numbers read from text data. -/
namespace Verif.Input
open Verif.LineReader Verif.AtomUtils

/-! ### Specification -/

/-- The number written with the decimal digits `ds`. -/
def decimal (ds : Str) : ℕ := Nat.ofDigits 10 (ds.reverse.map fun c => c.toNat - 48)

/-- `s` is the text of the integer `v`: digits with an optional sign. -/
def IntText (s : Str) (v : ℤ) : Prop :=
  ∃ ds : Str, ds ≠ [] ∧ (∀ c ∈ ds, c.isDigit = true) ∧
    (((s = ds ∨ s = '+' :: ds) ∧ v = decimal ds) ∨ (s = '-' :: ds ∧ v = -(decimal ds : ℤ)))

/-- `s` is the text of the number `q`: optional sign, digits with an optional decimal point, at least one digit,
optional exponent. -/
def DecText (s : Str) (q : ℚ) : Prop :=
  ∃ sg ip fr f ex : Str, ∃ σ : ℚ, ∃ k : ℤ,
    s = sg ++ ip ++ fr ++ ex ∧
    ((sg = [] ∨ sg = ['+']) ∧ σ = 1 ∨ sg = ['-'] ∧ σ = -1) ∧
    (∀ c ∈ ip ++ f, c.isDigit = true) ∧ ip ++ f ≠ [] ∧
    (fr = [] ∧ f = [] ∨ fr = '.' :: f) ∧
    (ex = [] ∧ k = 0 ∨ ∃ t, (ex = 'e' :: t ∨ ex = 'E' :: t) ∧ IntText t k) ∧
    q = σ * ((decimal (ip ++ f) : ℚ) / 10 ^ f.length * 10 ^ k)

/-- Nothing, or white space first. -/
def Ends (rest : Str) : Prop := rest = [] ∨ ∃ c t, rest = c :: t ∧ isSpace c = true

/-- An empty line or a comment. -/
def Ignored (line : Str) : Prop := (∀ c ∈ line, isSpace c = true) ∨ ['#'] <+: line.dropWhile isSpace

/-- Nothing, or first a character that is not part of a number, such as white space or the "(" of an uncertainty. -/
def Stops (rest : Str) : Prop := rest = [] ∨ ∃ c t, rest = c :: t ∧ c.isDigit = false ∧ c ≠ '.' ∧ c ≠ 'e' ∧ c ≠ 'E'

/-! ### Lemmas -/

theorem isDigit_eq (c : Char) : isDigit c = c.isDigit := by
  unfold isDigit Char.isDigit
  rw [Bool.eq_iff_iff]
  simp only [decide_eq_true_eq, Bool.and_eq_true, UInt32.le_iff_toNat_le]
  rfl

theorem natVal_acc (s : Str) (n : ℕ) : s.foldl (fun n c => 10 * n + (c.toNat - 48)) n = n * 10 ^ s.length + decimal s := by
  induction s generalizing n with
  | nil => simp [decimal]
  | cons c s ih =>
    rw [List.foldl_cons, ih]
    unfold decimal
    rw [List.reverse_cons, List.map_append, Nat.ofDigits_append]
    simp only [List.length_map, List.length_reverse, List.map_cons, List.map_nil, Nat.ofDigits_singleton,
      List.length_cons, pow_succ]
    ring

theorem natVal_eq (s : Str) : natVal s = decimal s := by
  unfold natVal
  rw [natVal_acc]
  simp

theorem space_not_digit {c : Char} (h : isSpace c = true) : isDigit c = false ∧ c ≠ '-' ∧ c ≠ '+' ∧ c ≠ '.' ∧
    c ≠ 'e' ∧ c ≠ 'E' := by
  unfold isSpace at h
  simp only [Bool.or_eq_true, decide_eq_true_eq] at h
  rcases h with ((((rfl | rfl) | rfl) | rfl) | rfl) | rfl <;> decide

theorem digit_not {c : Char} (h : isDigit c = true) : isSpace c = false ∧ c ≠ '-' ∧ c ≠ '+' ∧ c ≠ '.' ∧
    c ≠ 'e' ∧ c ≠ 'E' := by
  refine ⟨?_, ?_, ?_, ?_, ?_, ?_⟩
  · cases hs : isSpace c with
    | false => rfl
    | true => rw [(space_not_digit hs).1] at h; cases h
  all_goals
    rintro rfl
    exact absurd h (by decide)

theorem span_all (p : Char → Bool) (w r : Str) (hw : ∀ c ∈ w, p c = true)
    (hr : ∀ c t, r = c :: t → p c = false) : (w ++ r).takeWhile p = w ∧ (w ++ r).dropWhile p = r := by
  induction w with
  | nil =>
    cases r with
    | nil => exact ⟨rfl, rfl⟩
    | cons c t =>
      have := hr c t rfl
      simp [this]
  | cons a w ih =>
    have h1 := hw a (by simp)
    obtain ⟨i1, i2⟩ := ih fun c hc => hw c (List.mem_cons_of_mem _ hc)
    simp [h1, i1, i2]

theorem ends_digit {rest : Str} (h : Ends rest) : ∀ c t, rest = c :: t → isDigit c = false := by
  intro c t e
  rcases h with rfl | ⟨c', t', rfl, hc⟩
  · cases e
  · cases e; exact (space_not_digit hc).1

theorem digits_isDigit {ds : Str} (h : ∀ c ∈ ds, c.isDigit = true) : ∀ c ∈ ds, isDigit c = true :=
  fun c hc => by rw [isDigit_eq]; exact h c hc

/-- An optional sign followed by text that does not start with one. -/
theorem takeSign_spec (s r : Str) (neg : Bool) (hs : (s = [] ∨ s = ['+']) ∧ neg = false ∨ s = ['-'] ∧ neg = true)
    (hr : ∀ c t, r = c :: t → c ≠ '-' ∧ c ≠ '+') : takeSign (s ++ r) = (neg, r) := by
  rcases hs with ⟨rfl | rfl, rfl⟩ | ⟨rfl, rfl⟩
  · cases r with
    | nil => rfl
    | cons c t =>
      obtain ⟨h1, h2⟩ := hr c t rfl
      simp [takeSign, h1, h2]
  · simp [takeSign]
  · simp [takeSign]

theorem intText_split {s : Str} {v : ℤ} (h : IntText s v) : ∃ (sg ds : Str) (neg : Bool), s = sg ++ ds ∧ ds ≠ [] ∧
    (∀ c ∈ ds, isDigit c = true) ∧ ((sg = [] ∨ sg = ['+']) ∧ neg = false ∨ sg = ['-'] ∧ neg = true) ∧
    v = if neg then -(natVal ds : ℤ) else natVal ds := by
  obtain ⟨ds, h1, h2, h3⟩ := h
  rcases h3 with ⟨rfl | rfl, rfl⟩ | ⟨rfl, rfl⟩
  · exact ⟨[], s, false, rfl, h1, digits_isDigit h2, by simp, by simp [natVal_eq]⟩
  · exact ⟨['+'], ds, false, rfl, h1, digits_isDigit h2, by simp, by simp [natVal_eq]⟩
  · exact ⟨['-'], ds, true, rfl, h1, digits_isDigit h2, by simp, by simp [natVal_eq]⟩

/-- The first character of a text of digits. -/
theorem digits_head {ds r : Str} (h1 : ds ≠ []) (h2 : ∀ c ∈ ds, isDigit c = true) :
    ∀ c t, ds ++ r = c :: t → isDigit c = true := by
  intro c t e
  cases ds with
  | nil => exact absurd rfl h1
  | cons d ds => cases e; exact h2 _ (by simp)

theorem sign_not_space {s : Str} {neg : Bool} (hs : (s = [] ∨ s = ['+']) ∧ neg = false ∨ s = ['-'] ∧ neg = true) (r : Str)
    (hr : ∀ c t, r = c :: t → isSpace c = false) (hn : r ≠ []) :
    s ++ r ≠ [] ∧ ∀ c t, s ++ r = c :: t → isSpace c = false := by
  rcases hs with ⟨rfl | rfl, rfl⟩ | ⟨rfl, rfl⟩
  · exact ⟨hn, hr⟩
  · exact ⟨by simp, fun c t e => by cases e; decide⟩
  · exact ⟨by simp, fun c t e => by cases e; decide⟩

/-! ### Integers -/

/-- **C81**: the text of an integer of the type is read as that integer, and the stream is then after it.  What follows
need not be white space, only not a digit. -/
theorem int_word (g w rest : Str) (v : ℤ) (hg : ∀ c ∈ g, isSpace c = true) (hw : IntText w v)
    (hr : ∀ c t, rest = c :: t → isDigit c = false)
    (hv : -2 ^ 31 ≤ v ∧ v < 2 ^ 31) :
    getInt ⟨g ++ (w ++ rest), false, false⟩ = (⟨rest, rest.isEmpty, false⟩, some v) := by
  obtain ⟨sg, ds, neg, rfl, h1, h2, h3, rfl⟩ := intText_split hw
  have hd := digits_head (r := rest) h1 h2
  obtain ⟨n1, n2⟩ := sign_not_space h3 (ds ++ rest) (fun c t e => (digit_not (hd c t e)).1) (by simp [h1])
  have e1 : (g ++ (sg ++ ds ++ rest)).dropWhile isSpace = sg ++ (ds ++ rest) := by
    rw [List.append_assoc sg]; exact dropWhile_gap g _ hg n2
  have e2 : takeSign (sg ++ (ds ++ rest)) = (neg, ds ++ rest) :=
    takeSign_spec sg _ neg h3 fun c t e => ⟨(digit_not (hd c t e)).2.1, (digit_not (hd c t e)).2.2.1⟩
  obtain ⟨e3, e4⟩ := span_all isDigit ds rest h2 hr
  unfold getInt
  dsimp only
  rw [e1, e2, e3, e4]
  have n3 : (sg ++ (ds ++ rest)).isEmpty = false := by
    cases h : sg ++ (ds ++ rest) with
    | nil => exact absurd h n1
    | cons => rfl
  have n4 : ds.isEmpty = false := by cases ds with | nil => exact absurd rfl h1 | cons => rfl
  have n5 : ¬ ((if neg = true then -(natVal ds : ℤ) else natVal ds) < -2147483648 ∨
      2147483647 < (if neg = true then -(natVal ds : ℤ) else natVal ds)) := by omega
  rw [n3, n4, if_neg n5]
  simp

/-- **C81**: a word that does not start like an integer is not read as one, and neither is a number outside of the type
or the end of the stream. -/
theorem int_fails (g w rest : Str) (hg : ∀ c ∈ g, isSpace c = true) :
    ((∀ c t, w = c :: t → isSpace c = false ∧ isDigit c = false ∧ c ≠ '-' ∧ c ≠ '+') →
      (getInt ⟨g ++ w, false, false⟩).2 = none ∧ (getInt ⟨g ++ w, false, false⟩).1.fail = true) ∧
    (∀ v, IntText w v → Ends rest → ¬ (-2 ^ 31 ≤ v ∧ v < 2 ^ 31) →
      (getInt ⟨g ++ (w ++ rest), false, false⟩).2 = none ∧ (getInt ⟨g ++ (w ++ rest), false, false⟩).1.fail = true) := by
  constructor
  · intro hw
    have e1 : (g ++ w).dropWhile isSpace = w := dropWhile_gap g w hg fun c t e => (hw c t e).1
    unfold getInt
    dsimp only
    rw [e1]
    cases w with
    | nil => exact ⟨rfl, rfl⟩
    | cons c t =>
      obtain ⟨_, h2, h3, h4⟩ := hw c t rfl
      simp [takeSign, h2, h3, h4]
  · intro v hw hr hv
    obtain ⟨sg, ds, neg, rfl, h1, h2, h3, rfl⟩ := intText_split hw
    have hd := digits_head (r := rest) h1 h2
    obtain ⟨n1, n2⟩ := sign_not_space h3 (ds ++ rest) (fun c t e => (digit_not (hd c t e)).1) (by simp [h1])
    have e1 : (g ++ (sg ++ ds ++ rest)).dropWhile isSpace = sg ++ (ds ++ rest) := by
      rw [List.append_assoc sg]; exact dropWhile_gap g _ hg n2
    have e2 : takeSign (sg ++ (ds ++ rest)) = (neg, ds ++ rest) :=
      takeSign_spec sg _ neg h3 fun c t e => ⟨(digit_not (hd c t e)).2.1, (digit_not (hd c t e)).2.2.1⟩
    obtain ⟨e3, e4⟩ := span_all isDigit ds rest h2 (ends_digit hr)
    unfold getInt
    dsimp only
    rw [e1, e2, e3, e4]
    have n3 : (sg ++ (ds ++ rest)).isEmpty = false := by
      cases h : sg ++ (ds ++ rest) with
      | nil => exact absurd h n1
      | cons => rfl
    have n5 : ((if neg = true then -(natVal ds : ℤ) else natVal ds) < -2147483648 ∨
        2147483647 < (if neg = true then -(natVal ds : ℤ) else natVal ds)) := by omega
    rw [n3, if_pos n5]
    simp

/-- Text and stream of a value printed as in C++ (a minus sign and the digits). -/
theorem decimal_nat (n : ℕ) : ∃ ds : Str, ds ≠ [] ∧ (∀ c ∈ ds, c.isDigit = true) ∧ decimal ds = n := by
  induction n using Nat.strongRecOn with
  | ind n ih =>
    have hdig : ∀ k < 10, (Char.ofNat (48 + k)).isDigit = true ∧ (Char.ofNat (48 + k)).toNat - 48 = k := by decide
    by_cases hn : n < 10
    · refine ⟨[Char.ofNat (48 + n)], by simp, ?_, ?_⟩
      · intro c hc; rw [List.mem_singleton.1 hc]; exact (hdig n hn).1
      · unfold decimal; simp [(hdig n hn).2]
    · obtain ⟨ds, h1, h2, h3⟩ := ih (n / 10) (by omega)
      refine ⟨ds ++ [Char.ofNat (48 + n % 10)], by simp, ?_, ?_⟩
      · intro c hc
        rcases List.mem_append.1 hc with hc | hc
        · exact h2 c hc
        · rw [List.mem_singleton.1 hc]; exact (hdig _ (by omega)).1
      · unfold decimal at h3 ⊢
        rw [List.reverse_append, List.map_append, Nat.ofDigits_append, h3]
        simp only [List.reverse_cons, List.reverse_nil, List.nil_append, List.map_cons, List.map_nil,
          Nat.ofDigits_singleton, List.length_cons, List.length_nil, (hdig _ (Nat.mod_lt n (by omega))).2]
        omega

/-- Every integer has a text. -/
theorem intText_exists (v : ℤ) : ∃ s, IntText s v := by
  obtain ⟨ds, h1, h2, h3⟩ := decimal_nat v.natAbs
  rcases Int.natAbs_eq v with h | h
  · exact ⟨ds, ds, h1, h2, Or.inl ⟨Or.inl rfl, by rw [h3]; exact h⟩⟩
  · exact ⟨'-' :: ds, ds, h1, h2, Or.inr ⟨rfl, by rw [h3]; exact h⟩⟩

/-! ### Floating point numbers -/

theorem stops_digit {rest : Str} (h : Stops rest) : ∀ c t, rest = c :: t → isDigit c = false := by
  intro c t e
  rcases h with rfl | ⟨c', t', rfl, hc⟩
  · cases e
  · cases e; rw [isDigit_eq]; exact hc.1

theorem ends_stops {rest : Str} (h : Ends rest) : Stops rest := by
  rcases h with rfl | ⟨c, t, rfl, hc⟩
  · exact Or.inl rfl
  · have := space_not_digit hc
    exact Or.inr ⟨c, t, rfl, by rw [← isDigit_eq]; exact this.1, by tauto⟩

theorem takeExp_spec (ex rest : Str) (k : ℤ) (he : ex = [] ∧ k = 0 ∨ ∃ t, (ex = 'e' :: t ∨ ex = 'E' :: t) ∧ IntText t k)
    (hr : Stops rest) : takeExp (ex ++ rest) = (some k, rest) := by
  rcases he with ⟨rfl, rfl⟩ | ⟨t, het, ht⟩
  · rcases hr with rfl | ⟨c, t, rfl, hc⟩
    · rfl
    · simp [takeExp, hc.2.2]
  · obtain ⟨sg, ds, neg, rfl, h1, h2, h3, rfl⟩ := intText_split ht
    have hd := digits_head (r := rest) h1 h2
    have e2 : takeSign (sg ++ (ds ++ rest)) = (neg, ds ++ rest) :=
      takeSign_spec sg _ neg h3 fun c t e => ⟨(digit_not (hd c t e)).2.1, (digit_not (hd c t e)).2.2.1⟩
    obtain ⟨e3, e4⟩ := span_all isDigit ds rest h2 (stops_digit hr)
    have n4 : ds.isEmpty = false := by cases ds with | nil => exact absurd rfl h1 | cons => rfl
    rcases het with rfl | rfl
    · rw [List.cons_append, List.append_assoc, takeExp, if_pos (Or.inl rfl), e2]
      simp only [e3, e4, n4, Bool.false_eq_true, if_false]
    · rw [List.cons_append, List.append_assoc, takeExp, if_pos (Or.inr rfl), e2]
      simp only [e3, e4, n4, Bool.false_eq_true, if_false]

theorem exp_head {ex rest : Str} {k : ℤ} (he : ex = [] ∧ k = 0 ∨ ∃ t, (ex = 'e' :: t ∨ ex = 'E' :: t) ∧ IntText t k)
    (hr : Stops rest) : ∀ c t, ex ++ rest = c :: t → isDigit c = false ∧ c ≠ '.' := by
  intro c t e
  rcases he with ⟨rfl, rfl⟩ | ⟨t', rfl | rfl, -⟩
  · rcases hr with rfl | ⟨c', t', rfl, hc⟩
    · cases e
    · cases e; exact ⟨by rw [isDigit_eq]; exact hc.1, hc.2.1⟩
  · cases e; decide
  · cases e; decide

theorem scanDouble_text {w : Str} {q : ℚ} (hw : DecText w q) {rest : Str} (hr : Stops rest) :
    scanDouble (w ++ rest) = (some q, rest) ∧ w ≠ [] ∧ ∀ c t, w ++ rest = c :: t → isSpace c = false := by
  obtain ⟨sg, ip, fr, f, ex, σ, k, rfl, hsg, hdig, hne, hfr, hex, rfl⟩ := hw
  have hdig' := digits_isDigit hdig
  have hip : ∀ c ∈ ip, isDigit c = true := fun c hc => hdig' c (List.mem_append_left _ hc)
  have hf : ∀ c ∈ f, isDigit c = true := fun c hc => hdig' c (List.mem_append_right _ hc)
  have hexh := exp_head hex hr
  -- the rest after the integer part does not start with a digit
  have hfrh : ∀ c t, fr ++ (ex ++ rest) = c :: t → isDigit c = false := by
    intro c t e
    rcases hfr with ⟨rfl, rfl⟩ | rfl
    · exact (hexh c t e).1
    · cases e; decide
  -- the whole mantissa starts with a digit or a point
  have hmh : ∀ c t, ip ++ (fr ++ (ex ++ rest)) = c :: t → isDigit c = true ∨ c = '.' := by
    intro c t e
    cases ip with
    | cons d ip => cases e; exact Or.inl (hip _ (by simp))
    | nil =>
      rcases hfr with ⟨rfl, rfl⟩ | rfl
      · exact absurd rfl hne
      · cases e; exact Or.inr rfl
  have hmn : ip ++ (fr ++ (ex ++ rest)) ≠ [] := by
    intro h
    rcases List.append_eq_nil_iff.1 h with ⟨h1, h2⟩
    rcases List.append_eq_nil_iff.1 h2 with ⟨h3, -⟩
    rcases hfr with ⟨-, rfl⟩ | rfl
    · exact hne (by rw [h1]; rfl)
    · cases h3
  obtain ⟨neg, hneg, hσ⟩ : ∃ neg : Bool, ((sg = [] ∨ sg = ['+']) ∧ neg = false ∨ sg = ['-'] ∧ neg = true) ∧
      ∀ x : ℚ, (if neg = true then -x else x) = σ * x := by
    rcases hsg with ⟨h, rfl⟩ | ⟨h, rfl⟩
    · exact ⟨false, Or.inl ⟨h, rfl⟩, fun x => by simp⟩
    · exact ⟨true, Or.inr ⟨h, rfl⟩, fun x => by simp⟩
  have hsp : ∀ c t, ip ++ (fr ++ (ex ++ rest)) = c :: t → isSpace c = false ∧ c ≠ '-' ∧ c ≠ '+' := by
    intro c t e
    rcases hmh c t e with h | rfl
    · exact ⟨(digit_not h).1, (digit_not h).2.1, (digit_not h).2.2.1⟩
    · decide
  have hassoc : sg ++ ip ++ fr ++ ex ++ rest = sg ++ (ip ++ (fr ++ (ex ++ rest))) := by simp
  have e2 := takeSign_spec sg _ neg hneg fun c t e => (hsp c t e).2
  obtain ⟨e3, e4⟩ := span_all isDigit ip (fr ++ (ex ++ rest)) hip hfrh
  have e5 : takeFrac (fr ++ (ex ++ rest)) = (f, ex ++ rest) := by
    rcases hfr with ⟨rfl, rfl⟩ | rfl
    · rw [List.nil_append]
      cases h : ex ++ rest with
      | nil => rfl
      | cons c t => simp [takeFrac, (hexh c t h).2]
    · rw [List.cons_append, takeFrac, if_pos rfl]
      obtain ⟨a1, a2⟩ := span_all isDigit f (ex ++ rest) hf fun c t e => (hexh c t e).1
      rw [a1, a2]
  obtain ⟨n1, n2⟩ := sign_not_space hneg _ (fun c t e => (hsp c t e).1) hmn
  refine ⟨?_, ?_, ?_⟩
  · rw [hassoc]
    unfold scanDouble
    dsimp only
    rw [e2]
    dsimp only
    rw [e3, e4, e5]
    dsimp only
    have hnn : ¬ ((ip.isEmpty && f.isEmpty) = true) := by
      intro h
      rw [Bool.and_eq_true, List.isEmpty_iff, List.isEmpty_iff] at h
      exact hne (by rw [h.1, h.2]; rfl)
    rw [if_neg hnn, takeExp_spec ex rest k hex hr]
    dsimp only
    rw [hσ, natVal_eq]
  · intro h
    have h' : ip ++ f = [] := by
      have hip0 : ip = [] := by
        have := congrArg List.length h
        simp at this
        exact this.2.1
      have hfr0 : fr = [] := by
        have := congrArg List.length h
        simp at this
        exact this.2.2.1
      rcases hfr with ⟨-, rfl⟩ | rfl
      · rw [hip0]; rfl
      · cases hfr0
    exact hne h'
  · rw [hassoc]; exact n2

/-- **C81**: a word that is the text of a number is read as the double nearest to that number, and the stream is then
after the number. -/
theorem double_word (g w rest : Str) (q : ℚ) (hg : ∀ c ∈ g, isSpace c = true) (hw : DecText w q) (hr : Stops rest)
    (hq : |Double.fl64 q| < 2 ^ 1024) :
    getDouble ⟨g ++ (w ++ rest), false, false⟩ = (⟨rest, rest.isEmpty, false⟩, some (Double.fl64 q)) := by
  obtain ⟨h1, h2, h3⟩ := scanDouble_text hw hr
  have e1 : (g ++ (w ++ rest)).dropWhile isSpace = w ++ rest := dropWhile_gap g _ hg h3
  unfold getDouble
  dsimp only
  rw [e1, h1]
  have n3 : (w ++ rest).isEmpty = false := by
    cases h : w ++ rest with
    | nil => exact absurd (List.append_eq_nil_iff.1 h).1 h2
    | cons => rfl
  rw [n3]
  dsimp only
  rw [if_neg (not_le.2 hq)]
  simp

/-- **C81**: a word that does not start like a number is not read as one. -/
theorem double_fails (g w : Str) (hg : ∀ c ∈ g, isSpace c = true)
    (hw : ∀ c t, w = c :: t → isSpace c = false ∧ isDigit c = false ∧ c ≠ '-' ∧ c ≠ '+' ∧ c ≠ '.') :
    (getDouble ⟨g ++ w, false, false⟩).2 = none ∧ (getDouble ⟨g ++ w, false, false⟩).1.fail = true := by
  have e1 : (g ++ w).dropWhile isSpace = w := dropWhile_gap g w hg fun c t e => (hw c t e).1
  unfold getDouble
  dsimp only
  rw [e1]
  cases w with
  | nil => exact ⟨rfl, rfl⟩
  | cons c t =>
    obtain ⟨_, h2, h3, h4, h5⟩ := hw c t rfl
    simp [scanDouble, takeSign, takeFrac, h2, h3, h4, h5]

/-! ### Lines -/

theorem word_read (g w rest : Str) (str : Str) (hg : ∀ c ∈ g, isSpace c = true) (hw : ∀ c ∈ w, isSpace c = false) (hne : w ≠ [])
    (hr : Ends rest) : getword ⟨g ++ (w ++ rest), false, false⟩ str = (⟨rest, rest.isEmpty, false⟩, w) := by
  have hd : (g ++ (w ++ rest)).dropWhile isSpace = w ++ rest := by
    apply dropWhile_gap g _ hg
    intro c t e
    cases w with
    | nil => exact absurd rfl hne
    | cons a w => cases e; exact hw _ (by simp)
  obtain ⟨h1, h2⟩ := span_word w rest hw hr
  unfold getword
  dsimp only
  rw [hd, h1, h2]
  have n3 : (w ++ rest).isEmpty = false := by
    cases h : w ++ rest with
    | nil => exact absurd (List.append_eq_nil_iff.1 h).1 hne
    | cons => rfl
  rw [n3]
  simp

/-- The stream after a word: at the end, or before the next words. -/
theorem good_or_end (rest : Str) (ws : List Str) (ht : Tokens rest ws) (h : rest.isEmpty = true) : ws = [] := by
  cases ht with
  | blank => rfl
  | word g w rest ws hg hw hne hr ht =>
    rw [List.isEmpty_iff, List.append_eq_nil_iff, List.append_eq_nil_iff] at h
    exact absurd h.2.1 hne

/-- The stream before the words `ws`. -/
def Before (fp : Stream) (ws : List Str) : Prop := fp.fail = false ∧ Tokens fp.rest ws ∧ (fp.eof = true → ws = [])

theorem before_open {line : Str} {ws : List Str} (h : Tokens line ws) : Before (openStream line) ws :=
  ⟨rfl, h, fun h => by cases h⟩

theorem before_cases {fp : Stream} {w : Str} {ws : List Str} (h : Before fp (w :: ws)) :
    ∃ g rest, fp = ⟨g ++ (w ++ rest), false, false⟩ ∧ (∀ c ∈ g, isSpace c = true) ∧ (∀ c ∈ w, isSpace c = false) ∧
      w ≠ [] ∧ Ends rest ∧ Before ⟨rest, rest.isEmpty, false⟩ ws := by
  obtain ⟨h1, h2, h3⟩ := h
  obtain ⟨r, e, f⟩ := fp
  have he : e = false := by
    cases e with
    | false => rfl
    | true => exact absurd (h3 rfl) (by simp)
  dsimp only at h1 h2
  subst he h1
  cases h2 with
  | word g w rest ws hg hw hne hr ht =>
    exact ⟨g, rest, rfl, hg, hw, hne, hr, rfl, ht, fun h => good_or_end rest ws ht h⟩

theorem before_word {fp : Stream} {w : Str} {ws : List Str} (h : Before fp (w :: ws)) (str : Str) :
    (getword fp str).2 = w ∧ (getword fp str).1.fail = false ∧ Before (getword fp str).1 ws := by
  obtain ⟨g, rest, rfl, hg, hw, hne, hr, hb⟩ := before_cases h
  rw [word_read g w rest str hg hw hne hr]
  exact ⟨rfl, rfl, hb⟩

theorem before_int {fp : Stream} {w : Str} {ws : List Str} {v : ℤ} (h : Before fp (w :: ws)) (hi : IntText w v)
    (hv : -2 ^ 31 ≤ v ∧ v < 2 ^ 31) : ∃ fp', getInt fp = (fp', some v) ∧ Before fp' ws := by
  obtain ⟨g, rest, rfl, hg, hw, hne, hr, hb⟩ := before_cases h
  exact ⟨_, int_word g w rest v hg hi (ends_digit hr) hv, hb⟩

theorem before_double {fp : Stream} {w : Str} {ws : List Str} {q : ℚ} (h : Before fp (w :: ws)) (hi : DecText w q)
    (hq : |Double.fl64 q| < 2 ^ 1024) : ∃ fp', getDouble fp = (fp', some (Double.fl64 q)) ∧ Before fp' ws := by
  obtain ⟨g, rest, rfl, hg, hw, hne, hr, hb⟩ := before_cases h
  exact ⟨_, double_word g w rest q hg hi (ends_stops hr) hq, hb⟩

theorem before_end {fp : Stream} (h : Before fp []) (str : Str) : (getInt fp).2 = none ∧ (getDouble fp).2 = none ∧
    (getword fp str).1.fail = true := by
  obtain ⟨h1, h2, -⟩ := h
  obtain ⟨r, e, f⟩ := fp
  dsimp only at h1 h2
  subst h1
  have hs := tokens_nil h2
  have hd : r.dropWhile isSpace = [] := by simpa using dropWhile_gap r [] hs (by simp)
  cases e with
  | true => exact ⟨rfl, rfl, rfl⟩
  | false => simp [getInt, getDouble, getword, hd]

/-- The loop over charges. -/
theorem intLoop_words : ∀ (n : ℕ) (fp : Stream) (ws : List Str) (vs : List ℤ), ws.length < n → Before fp ws →
    List.Forall₂ IntText ws vs → (∀ v ∈ vs, -2 ^ 31 ≤ v ∧ v < 2 ^ 31) → intLoop n fp = vs := by
  intro n
  induction n with
  | zero => intro fp ws vs h; omega
  | succ n ih =>
    intro fp ws vs hn hb hf hv
    cases hf with
    | nil => simp [intLoop, (before_end hb []).1]
    | cons h1 h2 =>
      obtain ⟨fp', e, hb'⟩ := before_int hb h1 (hv _ (by simp))
      rw [intLoop, e]
      dsimp only
      rw [ih fp' _ _ (by simpa using hn) hb' h2 fun v hv' => hv v (List.mem_cons_of_mem _ hv')]

theorem tokens_length {s : Str} {ws : List Str} (h : Tokens s ws) : ws.length ≤ s.length := by
  induction h with
  | blank => simp
  | word g w rest ws hg hw hne hr ht ih =>
    have : 0 < w.length := List.length_pos_iff.2 hne
    simp only [List.length_cons, List.length_append]
    omega

/-- **C81**: a line of the list of ions is read as written: symbol, number of electrons and all charges. -/
theorem ion_line (line el zs : Str) (cs : List Str) (z : ℤ) (vs : List ℤ) (h : Tokens line (el :: zs :: cs))
    (hz : IntText zs z) (hzr : -2 ^ 31 ≤ z ∧ z < 2 ^ 31) (hv : List.Forall₂ IntText cs vs)
    (hvr : ∀ v ∈ vs, -2 ^ 31 ≤ v ∧ v < 2 ^ 31) : ionLine line = some (el, z, vs) := by
  obtain ⟨w1, w2, w3⟩ := before_word (before_open h) []
  obtain ⟨fp', e, hb⟩ := before_int w3 hz hzr
  unfold ionLine
  dsimp only
  rw [w2, w1, e]
  have hl := tokens_length h
  simp only [List.length_cons] at hl
  simp [intLoop_words (line.length + 1) fp' cs vs (by omega) hb hv hvr]

theorem doubles_words : ∀ (ws : List Str) (qs : List ℚ) (fp : Stream) (more : List Str), Before fp (ws ++ more) →
    List.Forall₂ DecText ws qs → (∀ q ∈ qs, |Double.fl64 q| < 2 ^ 1024) →
    doubles ws.length fp = some (qs.map Double.fl64) := by
  intro ws
  induction ws with
  | nil => intro qs fp more _ hf _; cases hf; rfl
  | cons w ws ih =>
    intro qs fp more hb hf hq
    cases hf with
    | cons h1 h2 =>
      obtain ⟨fp', e, hb'⟩ := before_double hb h1 (hq _ (by simp))
      rw [List.length_cons, doubles, e]
      dsimp only
      rw [ih _ fp' more hb' h2 fun q hq' => hq q (List.mem_cons_of_mem _ hq')]
      rfl

/-- **C81**: a line of eleven numbers is read as the doubles nearest to them. -/
theorem wk_line (line : Str) (ws : List Str) (qs : List ℚ) (hl : ws.length = 11) (h : Tokens line ws)
    (hf : List.Forall₂ DecText ws qs) (hq : ∀ q ∈ qs, |Double.fl64 q| < 2 ^ 1024) :
    wkLine line = some (qs.map Double.fl64) := by
  unfold wkLine
  rw [← hl]
  exact doubles_words ws qs _ [] (by simpa using before_open h) hf hq

/-- **C81**: a scattering length in a field is read as the nearest double; what follows the number, such as its uncertainty in
parentheses, is ignored. -/
theorem bc_field (g w rest : Str) (q : ℚ) (hg : ∀ c ∈ g, isSpace c = true) (hw : DecText w q) (hr : Stops rest)
    (hq : |Double.fl64 q| < 2 ^ 1024) : bcField (g ++ (w ++ rest)) = some (Double.fl64 q) := by
  unfold bcField openStream
  rw [double_word g w rest q hg hw hr hq]

/-! ### Files -/

/-- What the reader finds on each line of a text. -/
theorem readers (text : Str) (L : List Str) (h : Fields '\n' text L) :
    ∃ rs : List Reader, readAll (openStream text) new = rs ∧ rs.map (·.line) = L ∧
      ∀ r ∈ rs, r.words = parseWords [] r.line ∧ r.commentmark = ['#'] := by
  obtain ⟨h1, h2⟩ := reading_spec text new
  refine ⟨_, rfl, fields_unique _ _ _ _ h1 h, ?_⟩
  intro r hr
  obtain ⟨k, hk⟩ := List.mem_iff_getElem?.1 hr
  obtain ⟨-, a, b, c⟩ := h2 k r hk
  refine ⟨?_, a⟩
  rw [c]; rfl

/-- The reader of a line of the file. -/
def Fits (r : Reader) : Prop := r.words = parseWords [] r.line ∧ r.commentmark = ['#']

theorem fits_ignored {r : Reader} (h : Fits r) : r.isignored = true ↔ Ignored r.line := by
  have hc := classify_words r h.1 (by rw [h.2]; simp) (by rw [h.2]; decide)
  rw [hc.2.2, hc.1, hc.2.1, h.2]
  rfl

/-- `line` is a line of the list of ions. -/
def IonText (line : Str) (e : Str × ℤ × List ℤ) : Prop :=
  ∃ zs cs, Tokens line (e.1 :: zs :: cs) ∧ IntText zs e.2.1 ∧ List.Forall₂ IntText cs e.2.2 ∧
    ∀ v ∈ e.2.1 :: e.2.2, -2 ^ 31 ≤ v ∧ v < 2 ^ 31

/-- **C81**: the table of electron numbers is the one of C53 for the entries written in the file, and it is loaded when
they are enough. -/
theorem ion_file (text : Str) (L : List Str) (es : List (Option (Str × ℤ × List ℤ))) (hL : Fields '\n' text L)
    (hes : List.Forall₂ (fun line o => (o = none ∧ Ignored line) ∨ ∃ e, o = some e ∧ ¬ Ignored line ∧ IonText line e) L es)
    (minsize : ℕ) :
    ∃ t : LineReader.Table, getTable ionLine minsize text none = (some t, if minsize ≤ t.length then some t else none) ∧
      ∀ q, AssocMap.find t q = AssocMap.find (entries (es.filterMap fun o => o)) q := by
  obtain ⟨rs, e, hlines, hfit⟩ := readers text L hL
  have hdata : dataLines ionLine rs = (es.filterMap fun o => o).map some := by
    subst hlines
    clear e hL
    induction rs generalizing es with
    | nil => cases hes; rfl
    | cons r rs ih =>
      rw [List.map_cons] at hes
      cases hes with
      | @cons _ o _ es h1 h2 =>
        have ih' := ih es (fun r hr => hfit r (List.mem_cons_of_mem _ hr)) h2
        have hf : Fits r := hfit r (by simp)
        unfold dataLines at ih' ⊢
        rcases h1 with ⟨rfl, hi⟩ | ⟨x, rfl, hi, zs, cs, ht, hz, hv, hr⟩
        · rw [List.filter_cons, (fits_ignored hf).2 hi]
          simpa using ih'
        · have hni : r.isignored = false := by
            rw [← Bool.not_eq_true]; exact fun h => hi ((fits_ignored hf).1 h)
          rw [List.filter_cons, hni]
          simp only [Bool.not_false, if_true, List.map_cons]
          rw [ih', ion_line r.line x.1 zs cs x.2.1 x.2.2 ht hz (hr _ (by simp)) hv
            fun v hv' => hr v (List.mem_cons_of_mem _ hv')]
          rfl
  have hload := load_spec ionLine rs [] _ hdata
  refine ⟨(loadLoop ionLine rs []).1, ?_, ?_⟩
  · unfold getTable
    dsimp only
    rw [e, hload]
    simp
  · intro q
    rw [hload]
    dsimp only
    rw [find_insertAll]
    rfl

/-- Lines of the list of ions of the library. -/
example : ionLine "Fe  26 2 3".toList = some ("Fe".toList, 26, [2, 3]) ∧
    ionLine "O 8 -1 -2".toList = some ("O".toList, 8, [-1, -2]) ∧ ionLine "Fe x".toList = none ∧
    ionLine "Fe 2147483648".toList = none ∧ ionLine "He 2".toList = some ("He".toList, 2, []) := by decide +kernel

example : bcField "-3.7390(11)".toList = some (Double.fl64 (-37390 / 10000)) ∧
    bcField " 1.5e-1 ".toList = some (Double.fl64 (15 / 100)) ∧ bcField ".5".toList = some (1 / 2) ∧
    bcField "1e400".toList = none ∧ bcField "1e".toList = none ∧ bcField "-".toList = none := by decide +kernel

example : DecText "-.25e+1".toList (-25 / 10) := by
  refine ⟨"-".toList, [], ".25".toList, "25".toList, "e+1".toList, -1, 1, by decide, Or.inr ⟨by decide, rfl⟩, by decide,
    by decide, Or.inr (by decide), Or.inr ⟨"+1".toList, Or.inl (by decide), ⟨"1".toList, by decide, by decide,
      Or.inl (by decide)⟩⟩, ?_⟩
  have : decimal ([] ++ "25".toList) = 25 := by decide
  have h2 : "25".toList.length = 2 := by decide
  rw [this, h2]
  norm_num

end Verif.Input
