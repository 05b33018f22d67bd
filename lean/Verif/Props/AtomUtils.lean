import Verif.Model.AtomUtils
import Mathlib.Tactic.Tauto
import Mathlib.Tactic.ByContra
import Mathlib.Order.Basic
/-! C37: atom symbols. -/
namespace Verif.AtomUtils

theorem findFirstNot_none (p : Char → Bool) (s : List Char) :
    findFirstNot p s = none ↔ ∀ c ∈ s, p c = true := by
  induction s with
  | nil => simp [findFirstNot]
  | cons c cs ih =>
    unfold findFirstNot
    by_cases h : p c
    · simp [h, ih]
    · simp [h]

theorem findFirstNot_some (p : Char → Bool) (a b : List Char) (c : Char) (ha : ∀ x ∈ a, p x = true)
    (hc : p c = false) : findFirstNot p (a ++ c :: b) = some a.length := by
  induction a with
  | nil => simp [findFirstNot, hc]
  | cons x a ih =>
    rw [List.cons_append, findFirstNot, if_pos (ha x (by simp)),
      ih (fun y hy => ha y (List.mem_cons_of_mem _ hy))]
    simp

theorem findFirstNot_split (p : Char → Bool) (s : List Char) (k : Nat) (h : findFirstNot p s = some k) :
    ∃ a c b, s = a ++ c :: b ∧ (∀ x ∈ a, p x = true) ∧ p c = false ∧ k = a.length := by
  induction s generalizing k with
  | nil => simp [findFirstNot] at h
  | cons x s ih =>
    unfold findFirstNot at h
    by_cases hx : p x
    · rw [if_pos hx] at h
      cases hk : findFirstNot p s with
      | none => rw [hk] at h; cases h
      | some k' =>
        rw [hk] at h
        obtain ⟨a, c, b, rfl, h1, h2, h3⟩ := ih k' hk
        refine ⟨x :: a, c, b, rfl, ?_, h2, ?_⟩
        · intro y hy
          rcases List.mem_cons.1 hy with rfl | hy
          · exact hx
          · exact h1 y hy
        · simp at h; simp; omega
    · rw [if_neg hx] at h
      cases h
      exact ⟨[], x, s, rfl, by simp, by simpa using hx, rfl⟩

theorem findLastNot_some (p : Char → Bool) (a b : List Char) (c : Char) (hb : ∀ x ∈ b, p x = true)
    (hc : p c = false) : findLastNot p (a ++ c :: b) = some a.length := by
  unfold findLastNot
  have : (a ++ c :: b).reverse = b.reverse ++ c :: a.reverse := by simp
  rw [this, findFirstNot_some p b.reverse a.reverse c (by simpa using hb) hc]
  simp

/-- C37 (specification). `m` is `s` without a prefix of isotope characters (digits, minus, blank,
tab) and without a suffix of charge characters (plus, minus, digits but 9, blank, tab), both as
long as possible. -/
def Trimmed (s m : List Char) : Prop :=
  ∃ p t, s = p ++ m ++ t ∧ (∀ c ∈ p, lead c = true) ∧ (∀ c ∈ t, trail c = true) ∧
    (∀ c, m.head? = some c → lead c = false) ∧ (∀ c, m.getLast? = some c → trail c = false)

theorem bare_of_parts (p t m : List Char) (hm : m ≠ []) (hp : ∀ c ∈ p, lead c = true)
    (ht : ∀ c ∈ t, trail c = true) (h1 : ∀ c, m.head? = some c → lead c = false)
    (h2 : ∀ c, m.getLast? = some c → trail c = false) : atomBareSymbol (p ++ m ++ t) = m := by
  obtain ⟨c, m', rfl⟩ := List.exists_cons_of_ne_nil hm
  have e1 : findFirstNot lead (p ++ (c :: m') ++ t) = some p.length := by
    have : p ++ (c :: m') ++ t = p ++ c :: (m' ++ t) := by simp
    rw [this]
    exact findFirstNot_some lead p _ c hp (h1 c rfl)
  have e2 : findLastNot trail (p ++ (c :: m') ++ t) = some (p.length + m'.length) := by
    have hl := List.dropLast_concat_getLast (l := c :: m') (by simp)
    have : p ++ (c :: m') ++ t = (p ++ (c :: m').dropLast) ++ (c :: m').getLast (by simp) :: t := by
      rw [List.append_assoc, List.append_assoc]
      congr 1
      conv => lhs; rw [← hl]
      simp
    rw [this, findLastNot_some trail _ t _ ht (h2 _ (List.getLast?_eq_some_getLast (by simp)))]
    simp
  unfold atomBareSymbol
  rw [e1, e2]
  simp only
  rw [if_pos (by omega)]
  rw [List.append_assoc, List.drop_left]
  have : p.length + m'.length + 1 - p.length = (c :: m').length := by simp; omega
  rw [this, List.take_left]

/-- C37. `atomBareSymbol` strips exactly the isotope prefix and the charge suffix: for a symbol that
contains some character which is neither (such as a letter), the result is the trimmed symbol, it
is not empty, and stripping again changes nothing. -/
theorem bare_spec (s : List Char) (h : ∃ c ∈ s, lead c = false ∧ trail c = false) :
    Trimmed s (atomBareSymbol s) ∧ atomBareSymbol s ≠ [] ∧
    atomBareSymbol (atomBareSymbol s) = atomBareSymbol s := by
  obtain ⟨c0, hc0, hl, ht⟩ := h
  have h1 : findFirstNot lead s ≠ none := by
    intro hn
    have := (findFirstNot_none lead s).1 hn c0 hc0
    rw [hl] at this; cases this
  have h2 : findFirstNot trail s.reverse ≠ none := by
    intro hn
    have := (findFirstNot_none trail s.reverse).1 hn c0 (by simpa using hc0)
    rw [ht] at this; cases this
  obtain ⟨pb, hpb⟩ := Option.ne_none_iff_exists'.1 h1
  obtain ⟨k, hk⟩ := Option.ne_none_iff_exists'.1 h2
  obtain ⟨p, c, b, rfl, p1, p2, -⟩ := findFirstNot_split lead s pb hpb
  obtain ⟨r, c', b', e, r1, r2, -⟩ := findFirstNot_split trail _ k hk
  -- the middle part: what remains of `c :: b` without the suffix
  have hrev : p ++ c :: b = b'.reverse ++ c' :: r.reverse := by
    have := congrArg List.reverse e
    simpa using this
  have hlen : r.length < (c :: b).length := by
    by_contra hcon
    -- then the suffix covers c0 or c0 is in the prefix
    rcases List.mem_append.1 hc0 with hm | hm
    · rw [p1 c0 hm] at hl; cases hl
    · have : c0 ∈ r.reverse := by
        have hd := congrArg (List.drop p.length) hrev
        rw [List.drop_left] at hd
        have hle : b'.reverse.length + 1 ≤ p.length := by
          have := congrArg List.length hrev
          simp only [List.length_append, List.length_cons, List.length_reverse] at this
          simp only [List.length_cons] at hcon
          simp only [List.length_reverse]; omega
        rw [hd] at hm
        have hs : b'.reverse ++ c' :: r.reverse = (b'.reverse ++ [c']) ++ r.reverse := by simp
        rw [hs, List.drop_append] at hm
        rcases List.mem_append.1 hm with hm | hm
        · rw [List.drop_eq_nil_of_le (by simp only [List.length_append, List.length_singleton]; exact hle)] at hm
          simp at hm
        · exact List.mem_of_mem_drop hm
      rw [r1 c0 (by simpa using this)] at ht
      cases ht
  have hcb : c :: b = (c :: b).take ((c :: b).length - r.length) ++ r.reverse := by
    have hd := congrArg (List.drop (p.length + ((c :: b).length - r.length))) hrev
    have hlr : p.length + (c :: b).length = b'.length + 1 + r.length := by
      have := congrArg List.length hrev
      simp only [List.length_append, List.length_cons, List.length_reverse] at this ⊢
      omega
    have hs : b'.reverse ++ c' :: r.reverse = (b'.reverse ++ [c']) ++ r.reverse := by simp
    rw [hs, ← List.drop_drop, List.drop_left, List.drop_left' (by simp only [List.length_append, List.length_reverse, List.length_singleton]; omega)] at hd
    rw [← hd]
    exact (List.take_append_drop _ _).symm
  generalize hmid : (c :: b).take ((c :: b).length - r.length) = m at *
  have hm : m ≠ [] := by
    intro hn
    have := congrArg List.length hmid
    rw [hn, List.length_take] at this
    simp only [List.length_nil] at this
    omega
  have hhead : ∀ x, m.head? = some x → lead x = false := by
    intro x hx
    obtain ⟨y, m', rfl⟩ := List.exists_cons_of_ne_nil hm
    have : y = c := by
      have := hcb
      rw [List.cons_append, List.cons.injEq] at this
      exact this.1.symm
    simp only [List.head?_cons, Option.some.injEq] at hx
    rw [← hx, this]; exact p2
  have hlast : ∀ x, m.getLast? = some x → trail x = false := by
    intro x hx
    have : p ++ m = b'.reverse ++ [c'] := by
      have h3 : (p ++ m) ++ r.reverse = (b'.reverse ++ [c']) ++ r.reverse := by
        rw [List.append_assoc, ← hcb, hrev]; simp
      exact List.append_cancel_right h3
    have hg := congrArg List.getLast? this
    rw [List.getLast?_append, hx] at hg
    simp at hg
    rw [hg]; exact r2
  have hbare : atomBareSymbol (p ++ c :: b) = m := by
    rw [hcb, ← List.append_assoc]
    exact bare_of_parts p r.reverse m hm p1 (by simpa using r1) hhead hlast
  rw [hbare]
  refine ⟨⟨p, r.reverse, by rw [List.append_assoc, ← hcb], p1, by simpa using r1, hhead, hlast⟩, hm, ?_⟩
  have := bare_of_parts [] [] m hm (by simp) (by simp) hhead hlast
  simpa using this

/-- C37. The trimmed symbol is unique among the non-empty ones, so `bare_spec` determines the result. -/
theorem trimmed_unique (s m m' : List Char) (hm : m ≠ []) (hm' : m' ≠ []) (h : Trimmed s m)
    (h' : Trimmed s m') : m = m' := by
  obtain ⟨p, t, rfl, h1, h2, h3, h4⟩ := h
  obtain ⟨p', t', e, g1, g2, g3, g4⟩ := h'
  rw [← bare_of_parts p t m hm h1 h2 h3 h4, e, bare_of_parts p' t' m' hm' g1 g2 g3 g4]

/-- C37. Neither idempotent nor a strip for odd strings: `"9 +"` gives `"+"`, and `"+"` gives the
empty string (`pe - pb + 1` wraps around). -/
theorem bare_not_idempotent : atomBareSymbol "9 +".toList = ['+'] ∧ atomBareSymbol ['+'] = [] := by
  decide

/-! ### Valence -/

theorem valenceLoop_spaces (rv : Int) (s : List Char) :
    valenceLoop rv s = valenceLoop rv (s.filter fun c => !isSpace c) := by
  induction s generalizing rv with
  | nil => rfl
  | cons c cs ih =>
    by_cases h : isSpace c
    · rw [valenceLoop, if_pos h, ih, List.filter_cons, if_neg (by simp [h])]
    · rw [List.filter_cons, if_pos (by simp [h]), valenceLoop, valenceLoop, if_neg h, if_neg h,
        ih 1, ih (-1)]

/-- C37. Blanks do not matter for the valence. -/
theorem valence_spaces (s : List Char) : atomValence s = atomValence (s.filter fun c => !isSpace c) := by
  unfold atomValence
  rw [valenceLoop_spaces, ← List.filter_reverse]

/-- C37 (specification). The value of a charge suffix digit. -/
def digit? (c : Char) : Option Nat :=
  if c = '0' then some 0 else if c = '1' then some 1 else if c = '2' then some 2
  else if c = '3' then some 3 else if c = '4' then some 4 else if c = '5' then some 5
  else if c = '6' then some 6 else if c = '7' then some 7 else if c = '8' then some 8 else none

theorem digit_of (c : Char) : ('0'.toNat ≤ c.toNat ∧ c.toNat ≤ '8'.toNat) ↔ (digit? c).isSome := by
  constructor
  · rintro ⟨h1, h2⟩
    have h1 : 48 ≤ c.toNat := h1
    have h2 : c.toNat ≤ 56 := h2
    have : c = Char.ofNat c.toNat := (Char.ofNat_toNat c).symm
    generalize c.toNat = n at *
    subst this
    have : n = 48 ∨ n = 49 ∨ n = 50 ∨ n = 51 ∨ n = 52 ∨ n = 53 ∨ n = 54 ∨ n = 55 ∨ n = 56 := by omega
    rcases this with rfl | rfl | rfl | rfl | rfl | rfl | rfl | rfl | rfl <;> decide
  · intro h
    unfold digit? at h
    repeat' split at h
    all_goals first | (subst c; decide) | (simp at h)

theorem digit_val (c : Char) (d : Nat) (h : digit? c = some d) :
    (c.toNat : Int) - ('0'.toNat : Int) = d := by
  unfold digit? at h
  repeat' split at h
  all_goals first | (subst c; cases h; rfl) | (cases h)

theorem valenceLoop_tail (rv : Int) (h0 : rv ≠ 0) (hs : List Char) (c : Char) (hc : isSpace c = false) :
    valenceLoop rv (c :: hs) = match digit? c with | some d => rv * d | none => rv := by
  rw [valenceLoop, if_neg (by simp [hc]), if_neg h0]
  cases hd : digit? c with
  | none =>
    rw [if_neg]
    intro hh
    have := (digit_of c).1 hh
    rw [hd] at this; cases this
  | some d =>
    rw [if_pos ((digit_of c).2 (by rw [hd]; rfl)), digit_val c d hd]

/-- C37. `atomValence` reads the signed charge suffix: the last non-blank character is a sign and the
one before it may be a digit 0-8 giving the magnitude (1 if it is none). -/
theorem valence_spec (s : List Char) (c sgn : Char) (v : Int) (hc : isSpace c = false)
    (hsgn : (sgn = '+' ∧ v = 1) ∨ (sgn = '-' ∧ v = -1)) :
    atomValence (s ++ [c, sgn]) = match digit? c with | some d => v * d | none => v := by
  unfold atomValence
  have : (s ++ [c, sgn]).reverse = sgn :: c :: s.reverse := by simp
  rw [this]
  rcases hsgn with ⟨rfl, rfl⟩ | ⟨rfl, rfl⟩
  · have : valenceLoop 0 ('+' :: c :: s.reverse) = valenceLoop 1 (c :: s.reverse) := rfl
    rw [this, valenceLoop_tail 1 (by decide) _ c hc]
  · have : valenceLoop 0 ('-' :: c :: s.reverse) = valenceLoop (-1) (c :: s.reverse) := rfl
    rw [this, valenceLoop_tail (-1) (by decide) _ c hc]

/-- C37. Symbols whose last non-blank character is no sign, and blank strings, have valence 0. -/
theorem valence_zero (s : List Char) :
    (∀ c, isSpace c = false → c ≠ '+' → c ≠ '-' → atomValence (s ++ [c]) = 0) ∧ atomValence [] = 0 := by
  refine ⟨?_, rfl⟩
  intro c hc h1 h2
  unfold atomValence
  have : (s ++ [c]).reverse = c :: s.reverse := by simp
  rw [this, valenceLoop, if_neg (by simp [hc]), if_pos rfl, if_neg h1, if_neg h2]

/-- C37. The valence lies in [-8, 8]. -/
theorem valence_bound (s : List Char) : -8 ≤ atomValence s ∧ atomValence s ≤ 8 := by
  unfold atomValence
  have h1 : ∀ rv : Int, (rv = 1 ∨ rv = -1) → ∀ t, -8 ≤ valenceLoop rv t ∧ valenceLoop rv t ≤ 8 := by
    intro rv hrv t
    induction t with
    | nil => rw [valenceLoop]; omega
    | cons c t ih =>
      by_cases hc : isSpace c
      · rw [valenceLoop, if_pos hc]; exact ih
      · rw [valenceLoop_tail rv (by omega) t c (by simpa using hc)]
        cases hd : digit? c with
        | none => simp only; omega
        | some d =>
          simp only
          have hd8 : d ≤ 8 := by
            unfold digit? at hd
            repeat' split at hd
            all_goals first | (cases hd; decide) | (cases hd)
          rcases hrv with rfl | rfl <;> omega
  have h0 : ∀ t, -8 ≤ valenceLoop 0 t ∧ valenceLoop 0 t ≤ 8 := by
    intro t
    induction t with
    | nil => decide
    | cons c t ih =>
      rw [valenceLoop]
      by_cases hc : isSpace c
      · rw [if_pos hc]; exact ih
      · rw [if_neg hc, if_pos rfl]
        split
        · exact h1 1 (by omega) t
        · split
          · exact h1 (-1) (by omega) t
          · decide
  exact h0 _

/-- C37. Symbol and charge are recovered from `isotope + symbol + charge`: any prefix of digits and
minus signs, any symbol that begins with no prefix character and ends with no suffix character, and
a charge `d+` or `d-`. -/
theorem symbol_roundtrip (p m : List Char) (d : Char) (k : Nat) (sgn : Char) (v : Int) (hm : m ≠ [])
    (hp : ∀ c ∈ p, lead c = true) (h1 : ∀ c, m.head? = some c → lead c = false)
    (h2 : ∀ c, m.getLast? = some c → trail c = false) (hd : digit? d = some k)
    (hsgn : (sgn = '+' ∧ v = 1) ∨ (sgn = '-' ∧ v = -1)) :
    atomBareSymbol (p ++ m ++ [d, sgn]) = m ∧ atomValence (p ++ m ++ [d, sgn]) = v * k ∧
    atomBareSymbol (p ++ m ++ [sgn]) = m ∧ atomBareSymbol (p ++ m) = m := by
  have hdt : trail d = true := by
    unfold digit? at hd
    repeat' split at hd
    all_goals first | (subst d; decide) | (cases hd)
  have hst : trail sgn = true := by
    rcases hsgn with ⟨rfl, -⟩ | ⟨rfl, -⟩ <;> decide
  have hds : isSpace d = false := by
    unfold digit? at hd
    repeat' split at hd
    all_goals first | (subst d; decide) | (cases hd)
  refine ⟨?_, ?_, ?_, ?_⟩
  · apply bare_of_parts p _ m hm hp _ h1 h2
    intro c hc
    simp only [List.mem_cons, List.not_mem_nil, or_false] at hc
    rcases hc with rfl | rfl
    · exact hdt
    · exact hst
  · rw [valence_spec (p ++ m) d sgn v hds hsgn, hd]
  · apply bare_of_parts p _ m hm hp _ h1 h2
    intro c hc
    simp only [List.mem_cons, List.not_mem_nil, or_false] at hc
    rw [hc]; exact hst
  · have := bare_of_parts p [] m hm hp (by simp) h1 h2
    simpa using this

/-- Concrete symbols. -/
example : atomBareSymbol "12-C4+".toList = ['C'] ∧ atomValence "12-C4+".toList = 4 ∧
    atomBareSymbol " Cl 1- ".toList = ['C', 'l'] ∧ atomValence " Cl 1- ".toList = -1 ∧
    atomValence "Cl-".toList = -1 ∧ atomValence "Cl".toList = 0 ∧
    atomValence "X9+".toList = 1 ∧ atomBareSymbol "X9+".toList = ['X', '9'] ∧
    (∃ c ∈ "12-C4+".toList, lead c = false ∧ trail c = false) := by decide

end Verif.AtomUtils
