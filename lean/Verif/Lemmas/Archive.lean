import Verif.Model.Archive
import Verif.Lemmas.Ticker
import Mathlib.Tactic.Tauto
/-
Laws of the archive combinators: what a complete archive gives, and that truncated archives are rejected.
-/
namespace Verif.Archive
open Verif.Ticker

/-- Clock order. -/
def TLe (a b : Tick) : Prop := Ticker.le a b = true

/-- `s` restores what it wrote: `P ex x x0 y` relates the saved object `x`, the object `x0` it was loaded into and the result
`y`; `ex` is any condition under which the clock of the loading process is not behind the archived clock.  Archives cut short
are rejected. -/
structure Ok {σ : Type} (s : Ser σ) (P : Prop → σ → σ → σ → Prop) : Prop where
  round : ∀ (ex : Prop) ga g x x0 toks rest, s.save ga x = some toks → (ex → TLe ga g) →
    ∃ g' y, s.load g x0 (toks ++ rest) = .ok y rest g' ∧ P ex x x0 y ∧ (TLe ga g → TLe ga g')
  trunc : ∀ ga g x x0 toks p q, s.save ga x = some toks → toks = p ++ q → q ≠ [] → ∃ y, s.load g x0 p = .fail y

variable {σ α : Type}

/-- Everything is restored, whatever object it is loaded into. -/
def Same : Prop → α → α → α → Prop := fun _ x _ y => y = x

theorem Ok.imp {s : Ser σ} {P Q : Prop → σ → σ → σ → Prop} (h : Ok s P) (hq : ∀ ex x x0 y, P ex x x0 y → Q ex x x0 y) : Ok s Q := by
  refine ⟨fun ex ga g x x0 toks rest h1 h2 => ?_, h.trunc⟩
  obtain ⟨g', y, h3, h4, h5⟩ := h.round ex ga g x x0 toks rest h1 h2
  exact ⟨g', y, h3, hq _ _ _ _ h4, h5⟩

theorem ok_prim {mk : α → Tok} {un : Tok → Option α} (h : ∀ x, un (mk x) = some x) : Ok (prim mk un) Same := by
  constructor
  · intro ex ga g x x0 toks rest h1 h2
    simp only [prim, Option.some.injEq] at h1
    subst h1
    refine ⟨g, x, ?_, rfl, fun h => h⟩
    simp [prim, h]
  · intro ga g x x0 toks p q h1 h2 h3
    simp only [prim, Option.some.injEq] at h1
    subst h1
    have : p = [] := by
      cases p with
      | nil => rfl
      | cons a as =>
        simp at h2
        obtain ⟨_, _, h⟩ := h2
        exact absurd h h3
    subst this
    exact ⟨x0, rfl⟩

theorem ok_dbl : Ok sDbl Same := ok_prim (fun _ => rfl)
theorem ok_int : Ok sInt Same := ok_prim (fun _ => rfl)
theorem ok_bool : Ok sBool Same := ok_prim (fun _ => rfl)
theorem ok_str : Ok sStr Same := ok_prim (fun _ => rfl)

theorem ok_memb {get : σ → α} {set : σ → α → σ} {s : Ser α} {P : Prop → α → α → α → Prop} (h : Ok s P) :
    Ok (memb get set s) (fun ex x x0 y => ∃ v, P ex (get x) (get x0) v ∧ y = set x0 v) := by
  constructor
  · intro ex ga g x x0 toks rest h1 h2
    obtain ⟨g', v, h3, h4, h5⟩ := h.round ex ga g (get x) (get x0) toks rest h1 h2
    refine ⟨g', set x0 v, ?_, ⟨v, h4, rfl⟩, h5⟩
    simp [memb, h3]
  · intro ga g x x0 toks p q h1 h2 h3
    obtain ⟨v, h4⟩ := h.trunc ga g (get x) (get x0) toks p q h1 h2 h3
    exact ⟨set x0 v, by simp [memb, h4]⟩

theorem ok_nop : Ok (nop : Ser σ) (fun _ _ x0 y => y = x0) := by
  constructor
  · intro ex ga g x x0 toks rest h1 h2
    simp only [nop, Option.some.injEq] at h1
    subst h1
    exact ⟨g, x0, rfl, rfl, fun h => h⟩
  · intro ga g x x0 toks p q h1 h2 h3
    simp only [nop, Option.some.injEq] at h1
    subst h1
    simp at h2
    exact absurd h2.2 h3

theorem prefix_cases {a b p q : List Tok} (h : a ++ b = p ++ q) :
    (∃ p', p = a ++ p' ∧ b = p' ++ q) ∨ (∃ q', a = p ++ q' ∧ q' ≠ []) := by
  rcases List.append_eq_append_iff.mp h with ⟨c, h1, h2⟩ | ⟨c, h1, h2⟩
  · exact Or.inl ⟨c, h1, h2⟩
  · rcases c with _ | ⟨t, c⟩
    · left
      refine ⟨[], ?_, ?_⟩
      · simpa using h1.symm
      · simpa using h2.symm
    · exact Or.inr ⟨t :: c, h1, by simp⟩

theorem ok_seq {s t : Ser σ} {P Q : Prop → σ → σ → σ → Prop} (hs : Ok s P) (ht : Ok t Q) :
    Ok (seq s t) (fun ex x x0 y => ∃ m, P ex x x0 m ∧ Q ex x m y) := by
  constructor
  · intro ex ga g x x0 toks rest h1 h2
    simp only [seq, Option.bind_eq_bind, Option.pure_def, Option.bind_eq_some_iff, Option.some.injEq] at h1
    obtain ⟨a, ha, b, hb, rfl⟩ := h1
    obtain ⟨g1, m, h3, h4, h5⟩ := hs.round ex ga g x x0 a (b ++ rest) ha h2
    obtain ⟨g2, y, h6, h7, h8⟩ := ht.round ex ga g1 x m b rest hb (fun h => h5 (h2 h))
    refine ⟨g2, y, ?_, ⟨m, h4, h7⟩, fun h => h8 (h5 h)⟩
    simp [seq, h3, h6]
  · intro ga g x x0 toks p q h1 h2 h3
    simp only [seq, Option.bind_eq_bind, Option.pure_def, Option.bind_eq_some_iff, Option.some.injEq] at h1
    obtain ⟨a, ha, b, hb, rfl⟩ := h1
    rcases prefix_cases h2 with ⟨p', rfl, rfl⟩ | ⟨q', hq, hq'⟩
    · obtain ⟨g1, m, h4, _, _⟩ := hs.round False ga g x x0 a p' ha (fun h => h.elim)
      obtain ⟨y, h5⟩ := ht.trunc ga g1 x m _ p' q hb rfl h3
      exact ⟨y, by simp [seq, h4, h5]⟩
    · obtain ⟨y, h4⟩ := hs.trunc ga g x x0 a p q' ha hq hq'
      exact ⟨y, by simp [seq, h4]⟩

theorem ok_nil : Ok (seqs ([] : List (Ser σ))) (fun _ _ x0 y => y = x0) := ok_nop

theorem ok_cons {s : Ser σ} {ss : List (Ser σ)} {P Q : Prop → σ → σ → σ → Prop} (hs : Ok s P) (ht : Ok (seqs ss) Q) :
    Ok (seqs (s :: ss)) (fun ex x x0 y => ∃ m, P ex x x0 m ∧ Q ex x m y) := ok_seq hs ht

theorem ok_cls {cur : Nat} {body : Nat → Ser σ} {P : Prop → σ → σ → σ → Prop} (h : Ok (body cur) P) : Ok (cls cur body) P := by
  constructor
  · intro ex ga g x x0 toks rest h1 h2
    simp only [cls, Option.bind_eq_bind, Option.pure_def, Option.bind_eq_some_iff, Option.some.injEq] at h1
    obtain ⟨b, hb, rfl⟩ := h1
    obtain ⟨g', y, h3, h4, h5⟩ := h.round ex ga g x x0 b rest hb h2
    exact ⟨g', y, by simp [cls, h3], h4, h5⟩
  · intro ga g x x0 toks p q h1 h2 h3
    simp only [cls, Option.bind_eq_bind, Option.pure_def, Option.bind_eq_some_iff, Option.some.injEq] at h1
    obtain ⟨b, hb, rfl⟩ := h1
    cases p with
    | nil => exact ⟨x0, rfl⟩
    | cons t p =>
      simp only [List.cons_append, List.cons.injEq] at h2
      obtain ⟨rfl, h2⟩ := h2
      obtain ⟨y, h4⟩ := h.trunc ga g x x0 b p q hb h2 h3
      exact ⟨y, by simp [cls, h4]⟩

/-! ## Containers -/

theorem loadList_ok {s : Ser α} (h : Ok s Same) : ∀ (x x0 : List α) (ga g : Tick) (toks rest : List Tok),
    x0.length = x.length → saveList s ga x = some toks →
    ∃ g', loadList s g x0 (toks ++ rest) = .ok x rest g' ∧ (TLe ga g → TLe ga g')
  | [], x0, ga, g, toks, rest, hl, h1 => by
    obtain rfl := List.length_eq_zero_iff.mp hl
    simp only [saveList, Option.some.injEq] at h1
    subst h1
    exact ⟨g, rfl, fun h => h⟩
  | a :: as, x0, ga, g, toks, rest, hl, h1 => by
    cases x0 with
    | nil => simp at hl
    | cons b bs =>
      simp only [List.length_cons, Nat.add_right_cancel_iff] at hl
      simp only [saveList, Option.bind_eq_bind, Option.pure_def, Option.bind_eq_some_iff, Option.some.injEq] at h1
      obtain ⟨t1, h2, t2, h3, rfl⟩ := h1
      obtain ⟨g1, y, h4, rfl, h5⟩ := h.round (TLe ga g) ga g a b t1 (t2 ++ rest) h2 (fun h => h)
      obtain ⟨g2, h6, h7⟩ := loadList_ok h as bs ga g1 t2 rest hl h3
      exact ⟨g2, by simp [loadList, h4, h6], fun h => h7 (h5 h)⟩

theorem loadList_trunc {s : Ser α} (h : Ok s Same) : ∀ (x x0 : List α) (ga g : Tick) (toks p q : List Tok),
    x0.length = x.length → saveList s ga x = some toks → toks = p ++ q → q ≠ [] → ∃ y, loadList s g x0 p = .fail y
  | [], x0, ga, g, toks, p, q, hl, h1, h2, h3 => by
    simp only [saveList, Option.some.injEq] at h1
    subst h1
    simp at h2
    exact absurd h2.2 h3
  | a :: as, x0, ga, g, toks, p, q, hl, h1, h2, h3 => by
    cases x0 with
    | nil => simp at hl
    | cons b bs =>
      simp only [List.length_cons, Nat.add_right_cancel_iff] at hl
      simp only [saveList, Option.bind_eq_bind, Option.pure_def, Option.bind_eq_some_iff, Option.some.injEq] at h1
      obtain ⟨t1, h4, t2, h5, rfl⟩ := h1
      rcases prefix_cases h2 with ⟨p', rfl, rfl⟩ | ⟨q', hq, hq'⟩
      · obtain ⟨g1, y, h6, rfl, _⟩ := h.round False ga g a b t1 p' h4 (fun h => h.elim)
        obtain ⟨y, h7⟩ := loadList_trunc h as bs ga g1 _ p' q hl h5 rfl h3
        exact ⟨_, by simp [loadList, h6, h7]; rfl⟩
      · obtain ⟨y, h6⟩ := h.trunc ga g a b t1 p q' h4 hq hq'
        exact ⟨_, by simp [loadList, h6]; rfl⟩

theorem resize_length (d : α) (n : Nat) (old : List α) : (resize d n old).length = n := by
  simp [resize]; omega

theorem ok_vec {s : Ser α} (d : α) (h : Ok s Same) : Ok (vec d s) Same := by
  constructor
  · intro ex ga g x x0 toks rest h1 h2
    simp only [vec, Option.bind_eq_bind, Option.pure_def, Option.bind_eq_some_iff, Option.some.injEq] at h1
    obtain ⟨b, hb, rfl⟩ := h1
    obtain ⟨g', h3, h4⟩ := loadList_ok h x (resize d x.length x0) ga g b rest (resize_length _ _ _) hb
    exact ⟨g', x, by simp [vec, h3], rfl, h4⟩
  · intro ga g x x0 toks p q h1 h2 h3
    simp only [vec, Option.bind_eq_bind, Option.pure_def, Option.bind_eq_some_iff, Option.some.injEq] at h1
    obtain ⟨b, hb, rfl⟩ := h1
    cases p with
    | nil => exact ⟨x0, rfl⟩
    | cons t p =>
      simp only [List.cons_append, List.cons.injEq] at h2
      obtain ⟨rfl, h2⟩ := h2
      obtain ⟨y, h4⟩ := loadList_trunc h x (resize d x.length x0) ga g b p q (resize_length _ _ _) hb h2 h3
      exact ⟨y, by simp [vec, h4]⟩

variable {K V : Type} [DecidableEq K]

/-- Insertions one after another. -/
def insertAll (m : FMap K V) (l : List (K × V)) : FMap K V := l.foldl (fun m e => m.insert e.1 e.2) m

theorem insertAll_find : ∀ (l : List (K × V)) (m : FMap K V) (k : K), (l.map Prod.fst).Nodup →
    (insertAll m l).find k = match m.find k with
      | some w => some w
      | none => (l.find? (fun e => e.1 == k)).map Prod.snd
  | [], m, k, _ => by
    simp only [insertAll, List.foldl_nil, List.find?_nil, Option.map_none]
    cases m.find k <;> rfl
  | e :: l, m, k, h => by
    simp only [List.map_cons, List.nodup_cons] at h
    have ih := insertAll_find l (m.insert e.1 e.2) k h.2
    simp only [insertAll, List.foldl_cons] at ih ⊢
    rw [ih]
    simp only [FMap.insert, List.find?_cons]
    cases h1 : m.find k with
    | some w => rfl
    | none =>
      by_cases h2 : e.1 = k
      · subst h2; simp
      · have h3 : (e.1 == k) = false := by simpa using h2
        simp only [h3, if_neg (Ne.symm h2)]

theorem insertAll_enum (it : Orders) (m : FMap K V) : insertAll .empty (it.enum m) = m := by
  ext1
  funext k
  rw [insertAll_find _ _ _ (it.nodup m)]
  simp only [FMap.empty]
  cases h : (it.enum m).find? (fun e => e.1 == k) with
  | none =>
    simp only [Option.map_none]
    cases h2 : m.find k with
    | none => rfl
    | some v =>
      have := (it.mem_enum m k v).mpr h2
      have h3 := List.find?_eq_none.mp h _ this
      simp at h3
  | some e =>
    have h1 := List.mem_of_find?_eq_some h
    have h2 := List.find?_some h
    simp only [beq_iff_eq] at h2
    subst h2
    simp only [Option.map_some]
    exact ((it.mem_enum m e.1 e.2).mp h1).symm

theorem loadMap_ok {s : Ser (K × V)} (h : Ok s Same) (d : K × V) :
    ∀ (x : List (K × V)) (m : FMap K V) (ga g : Tick) (toks rest : List Tok), saveList s ga x = some toks →
    ∃ g', loadMap s d g x.length m (toks ++ rest) = .ok (insertAll m x) rest g' ∧ (TLe ga g → TLe ga g')
  | [], m, ga, g, toks, rest, h1 => by
    simp only [saveList, Option.some.injEq] at h1
    subst h1
    exact ⟨g, rfl, fun h => h⟩
  | a :: as, m, ga, g, toks, rest, h1 => by
    simp only [saveList, Option.bind_eq_bind, Option.pure_def, Option.bind_eq_some_iff, Option.some.injEq] at h1
    obtain ⟨t1, h2, t2, h3, rfl⟩ := h1
    obtain ⟨g1, y, h4, rfl, h5⟩ := h.round (TLe ga g) ga g a d t1 (t2 ++ rest) h2 (fun h => h)
    obtain ⟨g2, h6, h7⟩ := loadMap_ok h d as (m.insert y.1 y.2) ga g1 t2 rest h3
    refine ⟨g2, ?_, fun h => h7 (h5 h)⟩
    obtain ⟨k, v⟩ := y
    simp only [List.length_cons, loadMap, List.append_assoc, h4, h6]
    rfl

theorem loadMap_trunc {s : Ser (K × V)} (h : Ok s Same) (d : K × V) :
    ∀ (x : List (K × V)) (m : FMap K V) (ga g : Tick) (toks p q : List Tok), saveList s ga x = some toks →
    toks = p ++ q → q ≠ [] → ∃ y, loadMap s d g x.length m p = .fail y
  | [], m, ga, g, toks, p, q, h1, h2, h3 => by
    simp only [saveList, Option.some.injEq] at h1
    subst h1
    simp at h2
    exact absurd h2.2 h3
  | a :: as, m, ga, g, toks, p, q, h1, h2, h3 => by
    simp only [saveList, Option.bind_eq_bind, Option.pure_def, Option.bind_eq_some_iff, Option.some.injEq] at h1
    obtain ⟨t1, h4, t2, h5, rfl⟩ := h1
    rcases prefix_cases h2 with ⟨p', rfl, rfl⟩ | ⟨q', hq, hq'⟩
    · obtain ⟨g1, y, h6, rfl, _⟩ := h.round False ga g a d t1 p' h4 (fun h => h.elim)
      obtain ⟨z, h7⟩ := loadMap_trunc h d as (m.insert y.1 y.2) ga g1 _ p' q h5 rfl h3
      obtain ⟨k, v⟩ := y
      exact ⟨z, by simp only [List.length_cons, loadMap, h6, h7]⟩
    · obtain ⟨y, h6⟩ := h.trunc ga g a d t1 p q' h4 hq hq'
      exact ⟨m, by simp only [List.length_cons, loadMap, h6]⟩

theorem ok_assoc (it : Orders) {s : Ser (K × V)} (d : K × V) (h : Ok s Same) : Ok (assoc it d s) Same := by
  constructor
  · intro ex ga g x x0 toks rest h1 h2
    simp only [assoc, Option.bind_eq_bind, Option.pure_def, Option.bind_eq_some_iff, Option.some.injEq] at h1
    obtain ⟨b, hb, rfl⟩ := h1
    obtain ⟨g', h3, h4⟩ := loadMap_ok h d (it.enum x) .empty ga g b rest hb
    rw [insertAll_enum] at h3
    exact ⟨g', x, by simp [assoc, h3], rfl, h4⟩
  · intro ga g x x0 toks p q h1 h2 h3
    simp only [assoc, Option.bind_eq_bind, Option.pure_def, Option.bind_eq_some_iff, Option.some.injEq] at h1
    obtain ⟨b, hb, rfl⟩ := h1
    cases p with
    | nil => exact ⟨x0, rfl⟩
    | cons t p =>
      simp only [List.cons_append, List.cons.injEq] at h2
      obtain ⟨rfl, h2⟩ := h2
      obtain ⟨y, h4⟩ := loadMap_trunc h d (it.enum x) .empty ga g b p q hb h2 h3
      exact ⟨y, by simp [assoc, h4]⟩

/-- A ticker is restored when the clock is not behind; in general it is corrected (C02, C65). -/
def TickSame : Prop → Tick → Tick → Tick → Prop := fun ex x _ y => ex → y = x

theorem ok_tick : Ok sTick TickSame := by
  constructor
  · intro ex ga g x x0 toks rest h1 h2
    simp only [sTick, Option.some.injEq] at h1
    subst h1
    refine ⟨g, Ticker.load g x ga, rfl, ?_, fun h => h⟩
    intro hex
    have h3 := h2 hex
    simp only [TLe, Ticker.le, Bool.not_eq_true'] at h3
    simp [Ticker.load, Ticker.gt, h3]
  · intro ga g x x0 toks p q h1 h2 h3
    simp only [sTick, Option.some.injEq] at h1
    subst h1
    rcases p with _ | ⟨a, _ | ⟨b, _ | ⟨c, _ | ⟨d, p⟩⟩⟩⟩
    · exact ⟨x0, rfl⟩
    · simp at h2; obtain ⟨rfl, _⟩ := h2; exact ⟨x0, rfl⟩
    · simp at h2; obtain ⟨rfl, rfl, _⟩ := h2; exact ⟨x0, rfl⟩
    · simp at h2; obtain ⟨rfl, rfl, rfl, _⟩ := h2; exact ⟨x0, rfl⟩
    · simp at h2
      exact absurd h2.2.2.2.2.2 h3

theorem ok_pair {α β : Type} {s : Ser α} {t : Ser β} (hs : Ok s Same) (ht : Ok t Same) : Ok (sPair s t) Same := by
  refine (ok_cons (ok_memb hs) (ok_cons (ok_memb ht) ok_nil)).imp ?_
  rintro ex ⟨x1, x2⟩ x0 y ⟨m, ⟨v, rfl, rfl⟩, m2, ⟨w, rfl, rfl⟩, rfl⟩
  rfl

theorem ok_unit {α : Type} {s : Ser α} (hs : Ok s Same) : Ok (sUnit s) Same := by
  refine (ok_cons (ok_memb hs) ok_nil).imp ?_
  rintro ex ⟨x1, x2⟩ x0 y ⟨m, ⟨v, rfl, rfl⟩, rfl⟩
  rfl

/-! ## Pointers -/

/-- The alternatives of a pointer type: different names, injective embeddings, lawful contents. -/
structure AltOk {τ : Type} (a : Alt τ) (P : Prop → a.α → a.α → a.α → Prop) : Prop where
  ser : Ok a.ser P
  prj : ∀ o v, a.prj o = some v ↔ o = a.inj v
  clock : ∀ ga g, TLe ga g → TLe ga (a.clicks g)

theorem findAlt_mem {τ : Type} : ∀ (l : List (Alt τ)) (o : τ) (a : Alt τ) (v : a.α), findAlt l o = some ⟨a, v⟩ →
    a ∈ l ∧ a.prj o = some v
  | [], o, a, v, h => by simp [findAlt] at h
  | b :: l, o, a, v, h => by
    simp only [findAlt] at h
    cases hb : b.prj o with
    | none =>
      rw [hb] at h
      have := findAlt_mem l o a v h
      exact ⟨List.mem_cons_of_mem _ this.1, this.2⟩
    | some w =>
      rw [hb] at h
      simp only [Option.some.injEq] at h
      cases h
      exact ⟨List.mem_cons_self, hb⟩

theorem find_name {τ : Type} : ∀ (l : List (Alt τ)) (a : Alt τ), (l.map Alt.name).Nodup → a ∈ l →
    l.find? (fun b => b.name == a.name) = some a
  | [], a, _, h => by simp at h
  | b :: l, a, hn, h => by
    simp only [List.map_cons, List.nodup_cons, List.mem_map, not_exists, not_and] at hn
    rcases List.mem_cons.mp h with rfl | h
    · simp
    · have : b.name ≠ a.name := fun e => hn.1 a h e.symm
      rw [List.find?_cons_of_neg (by simpa using this)]
      exact find_name l a hn.2 h

/-- Relation for pointers: null to null, an object to a new object of the same class. -/
def PtrSame {τ : Type} (alts : List (Alt τ)) (P : (a : Alt τ) → Prop → a.α → a.α → a.α → Prop) :
    Prop → Option τ → Option τ → Option τ → Prop := fun ex x _ y =>
  match x with
  | none => y = none
  | some o => ∃ a ∈ alts, ∃ v w, o = a.inj v ∧ y = some (a.inj w) ∧ P a ex v a.new w

theorem ok_ptr {τ : Type} {alts : List (Alt τ)} {P : (a : Alt τ) → Prop → a.α → a.α → a.α → Prop}
    (hn : (alts.map Alt.name).Nodup) (h : ∀ a ∈ alts, AltOk a (P a)) : Ok (ptr alts) (PtrSame alts P) := by
  constructor
  · intro ex ga g x x0 toks rest h1 h2
    cases x with
    | none =>
      simp only [ptr, Option.some.injEq] at h1
      subst h1
      exact ⟨g, none, rfl, rfl, fun h => h⟩
    | some o =>
      simp only [ptr] at h1
      cases hf : findAlt alts o with
      | none => rw [hf] at h1; simp at h1
      | some av =>
        obtain ⟨a, v⟩ := av
        rw [hf] at h1
        simp only [Option.bind_eq_bind, Option.pure_def, Option.bind_eq_some_iff, Option.some.injEq] at h1
        obtain ⟨b, hb, rfl⟩ := h1
        obtain ⟨ha, hv⟩ := findAlt_mem _ _ _ _ hf
        have hok := h a ha
        obtain ⟨g', w, h3, h4, h5⟩ := hok.ser.round ex ga (a.clicks g) v a.new b rest hb (fun e => hok.clock _ _ (h2 e))
        refine ⟨g', some (a.inj w), ?_, ⟨a, ha, v, w, (hok.prj o v).mp hv, rfl, h4⟩, fun e => h5 (hok.clock _ _ e)⟩
        simp [ptr, find_name _ _ hn ha, h3]
  · intro ga g x x0 toks p q h1 h2 h3
    cases x with
    | none =>
      simp only [ptr, Option.some.injEq] at h1
      subst h1
      cases p with
      | nil => exact ⟨x0, rfl⟩
      | cons t p => simp at h2; exact absurd h2.2.2 h3
    | some o =>
      simp only [ptr] at h1
      cases hf : findAlt alts o with
      | none => rw [hf] at h1; simp at h1
      | some av =>
        obtain ⟨a, v⟩ := av
        rw [hf] at h1
        simp only [Option.bind_eq_bind, Option.pure_def, Option.bind_eq_some_iff, Option.some.injEq] at h1
        obtain ⟨b, hb, rfl⟩ := h1
        obtain ⟨ha, hv⟩ := findAlt_mem _ _ _ _ hf
        cases p with
        | nil => exact ⟨x0, rfl⟩
        | cons t p =>
          simp only [List.cons_append, List.cons.injEq] at h2
          obtain ⟨rfl, h2⟩ := h2
          obtain ⟨y, h4⟩ := (h a ha).ser.trunc ga (a.clicks g) v a.new b p q hb h2 h3
          exact ⟨x0, by simp [ptr, find_name _ _ hn ha, h4]⟩

/-! ## Objects without tickers -/

/-- The result is a function of the saved object and the target. -/
structure Sets (s : Ser σ) (f : σ → σ → σ) : Prop where
  ok : Ok s (fun _ x x0 y => y = f x x0)

theorem sets_memb {get : σ → α} {set : σ → α → σ} {s : Ser α} (h : Ok s Same) :
    Sets (memb get set s) (fun x x0 => set x0 (get x)) :=
  ⟨(ok_memb h).imp (by rintro ex x x0 y ⟨v, rfl, rfl⟩; rfl)⟩

theorem sets_nil : Sets (seqs ([] : List (Ser σ))) (fun _ x0 => x0) := ⟨ok_nop⟩

theorem sets_nop : Sets (nop : Ser σ) (fun _ x0 => x0) := ⟨ok_nop⟩

theorem sets_cls {cur : Nat} {body : Nat → Ser σ} {f : σ → σ → σ} (h : Sets (body cur) f) : Sets (cls cur body) f := ⟨ok_cls h.ok⟩

theorem sets_cons {s : Ser σ} {ss : List (Ser σ)} {f h : σ → σ → σ} (hs : Sets s f) (ht : Sets (seqs ss) h) :
    Sets (seqs (s :: ss)) (fun x x0 => h x (f x x0)) :=
  ⟨(ok_cons hs.ok ht.ok).imp (by rintro ex x x0 y ⟨m, rfl, rfl⟩; rfl)⟩

theorem Sets.same {s : Ser σ} {f : σ → σ → σ} (h : Sets s f) (e : ∀ x x0, f x x0 = x) : Ok s Same :=
  Ok.imp h.ok (by rintro ex x x0 y rfl; exact e x x0)

theorem Sets.congr {s : Ser σ} {f f' : σ → σ → σ} (h : Sets s f) (e : ∀ x x0, f x x0 = f' x x0) : Sets s f' :=
  ⟨Ok.imp h.ok (by rintro ex x x0 y rfl; exact e x x0)⟩

/-- Laws for bodies whose members are all restored. -/
macro "sets" : tactic => `(tactic| repeat' first
  | apply sets_cons | apply sets_memb | apply sets_cls | exact sets_nil | exact sets_nop | exact ok_dbl | exact ok_int
  | exact ok_bool | exact ok_str | apply ok_vec | apply ok_assoc | apply ok_pair | apply ok_unit | assumption)

theorem ok_V3 : Ok sV3 Same := by
  apply Sets.same
  · unfold sV3; sets
  · intro x x0; rfl

theorem ok_M3 : Ok sM3 Same := by
  have := ok_V3
  apply Sets.same
  · unfold sM3; sets
  · intro x x0; rfl

theorem ok_Atom : Ok sAtom Same := by
  have := ok_V3
  have := ok_M3
  apply Sets.same
  · unfold sAtom; sets
  · intro x x0; rfl

theorem ok_Latt : Ok sLatt Same := by
  have := ok_V3
  have := ok_M3
  apply Sets.same
  · unfold sLatt; sets
  · intro x x0; rfl

theorem ok_Atomic : Ok sAtomic Same := by
  have := ok_Atom
  apply Sets.same
  · unfold sAtomic; sets
  · intro x x0; rfl

theorem ok_Periodic : Ok sPeriodic Same := by
  have := ok_Atomic
  have := ok_Latt
  apply Sets.same
  · unfold sPeriodic; sets
  · intro x x0; rfl

theorem ok_SymOp : Ok sSymOp Same := by
  have := ok_V3
  have := ok_M3
  apply Sets.same
  · unfold sSymOp; sets
  · intro x x0; rfl

theorem ok_Crystal : Ok sCrystal Same := by
  have := ok_SymOp
  have := ok_Periodic
  have := ok_Atom
  apply Sets.same
  · unfold sCrystal; sets
  · intro x x0; rfl

/-! ## Structure pointers -/

/-- Nesting of wrappers. -/
def depth : Stru → Nat
  | .nometa s => depth s + 1
  | .nosymmetry s => depth s + 1
  | _ => 1

theorem depth_le : ∀ (x : Stru) (ga : Tick) (toks : List Tok), saveStru ga x = some toks → depth x ≤ toks.length
  | .null, ga, toks, h => by simp only [saveStru, Option.some.injEq] at h; subst h; simp [depth]
  | .empty, ga, toks, h => by simp only [saveStru, Option.some.injEq] at h; subst h; simp [depth]
  | .atomic s, ga, toks, h => by
    simp only [saveStru, Option.map_eq_some_iff] at h; obtain ⟨b, _, rfl⟩ := h; simp [depth]
  | .periodic s, ga, toks, h => by
    simp only [saveStru, Option.map_eq_some_iff] at h; obtain ⟨b, _, rfl⟩ := h; simp [depth]
  | .crystal s, ga, toks, h => by
    simp only [saveStru, Option.map_eq_some_iff] at h; obtain ⟨b, _, rfl⟩ := h; simp [depth]
  | .nometa s, ga, toks, h => by
    simp only [saveStru, Option.map_eq_some_iff] at h; obtain ⟨b, hb, rfl⟩ := h
    have := depth_le s ga b hb
    simp [depth, this]
  | .nosymmetry s, ga, toks, h => by
    simp only [saveStru, Option.map_eq_some_iff] at h; obtain ⟨b, hb, rfl⟩ := h
    have := depth_le s ga b hb
    simp [depth, this]
  | .other, ga, toks, h => by simp [saveStru] at h

theorem leaf_ok {s : Ser α} (h : Ok s Same) {ga g : Tick} {x d : α} {b rest : List Tok} (hb : s.save ga x = some b)
    (f : α → Stru) (x0 : Stru) : ∃ g', wrap f x0 (s.load g d (b ++ rest)) = .ok (f x) rest g' ∧ (TLe ga g → TLe ga g') := by
  obtain ⟨g', y, h3, rfl, h5⟩ := h.round (TLe ga g) ga g x d b rest hb (fun h => h)
  exact ⟨g', by rw [h3]; rfl, h5⟩

theorem loadStru_ok : ∀ (x : Stru) (n : Nat) (ga g : Tick) (x0 : Stru) (toks rest : List Tok), depth x ≤ n →
    saveStru ga x = some toks → ∃ g', loadStru n g x0 (toks ++ rest) = .ok x rest g' ∧ (TLe ga g → TLe ga g') := by
  intro x
  induction x with
  | null =>
    intro n ga g x0 toks rest hn h
    obtain ⟨n, rfl⟩ : ∃ m, n = m + 1 := ⟨n - 1, by simp [depth] at hn; omega⟩
    simp only [saveStru, Option.some.injEq] at h; subst h
    exact ⟨g, rfl, fun h => h⟩
  | empty =>
    intro n ga g x0 toks rest hn h
    obtain ⟨n, rfl⟩ : ∃ m, n = m + 1 := ⟨n - 1, by simp [depth] at hn; omega⟩
    simp only [saveStru, Option.some.injEq] at h; subst h
    exact ⟨g, rfl, fun h => h⟩
  | atomic s =>
    intro n ga g x0 toks rest hn h
    obtain ⟨n, rfl⟩ : ∃ m, n = m + 1 := ⟨n - 1, by simp [depth] at hn; omega⟩
    simp only [saveStru, Option.map_eq_some_iff] at h; obtain ⟨b, hb, rfl⟩ := h
    obtain ⟨g', h1, h2⟩ := leaf_ok ok_Atomic (g := g) (d := default) (rest := rest) hb .atomic x0
    exact ⟨g', by simp [loadStru, h1], h2⟩
  | periodic s =>
    intro n ga g x0 toks rest hn h
    obtain ⟨n, rfl⟩ : ∃ m, n = m + 1 := ⟨n - 1, by simp [depth] at hn; omega⟩
    simp only [saveStru, Option.map_eq_some_iff] at h; obtain ⟨b, hb, rfl⟩ := h
    obtain ⟨g', h1, h2⟩ := leaf_ok ok_Periodic (g := g) (d := default) (rest := rest) hb .periodic x0
    exact ⟨g', by simp [loadStru, h1], h2⟩
  | crystal s =>
    intro n ga g x0 toks rest hn h
    obtain ⟨n, rfl⟩ : ∃ m, n = m + 1 := ⟨n - 1, by simp [depth] at hn; omega⟩
    simp only [saveStru, Option.map_eq_some_iff] at h; obtain ⟨b, hb, rfl⟩ := h
    obtain ⟨g', h1, h2⟩ := leaf_ok ok_Crystal (g := g) (d := default) (rest := rest) hb .crystal x0
    exact ⟨g', by simp [loadStru, h1], h2⟩
  | nometa s ih =>
    intro n ga g x0 toks rest hn h
    obtain ⟨n, rfl⟩ : ∃ m, n = m + 1 := ⟨n - 1, by simp [depth] at hn; omega⟩
    simp only [saveStru, Option.map_eq_some_iff] at h; obtain ⟨b, hb, rfl⟩ := h
    obtain ⟨g', h1, h2⟩ := ih n ga g .null b rest (by simpa [depth] using hn) hb
    exact ⟨g', by simp [loadStru, h1, wrap], h2⟩
  | nosymmetry s ih =>
    intro n ga g x0 toks rest hn h
    obtain ⟨n, rfl⟩ : ∃ m, n = m + 1 := ⟨n - 1, by simp [depth] at hn; omega⟩
    simp only [saveStru, Option.map_eq_some_iff] at h; obtain ⟨b, hb, rfl⟩ := h
    obtain ⟨g', h1, h2⟩ := ih n ga g .null b rest (by simpa [depth] using hn) hb
    exact ⟨g', by simp [loadStru, h1, wrap], h2⟩
  | other =>
    intro n ga g x0 toks rest hn h
    simp [saveStru] at h

theorem leaf_trunc {s : Ser α} (h : Ok s Same) {ga g : Tick} {x d : α} {b p q : List Tok} (hb : s.save ga x = some b)
    (h2 : b = p ++ q) (h3 : q ≠ []) (f : α → Stru) (x0 : Stru) : wrap f x0 (s.load g d p) = .fail x0 := by
  obtain ⟨y, h4⟩ := h.trunc ga g x d b p q hb h2 h3
  rw [h4]; rfl

theorem loadStru_trunc : ∀ (x : Stru) (n : Nat) (ga g : Tick) (x0 : Stru) (toks p q : List Tok),
    saveStru ga x = some toks → toks = p ++ q → q ≠ [] → loadStru n g x0 p = .fail x0 := by
  intro x
  induction x with
  | other => intro n ga g x0 toks p q h; simp [saveStru] at h
  | null =>
    intro n ga g x0 toks p q h h2 h3
    simp only [saveStru, Option.some.injEq] at h; subst h
    rcases n with _ | n
    · rfl
    rcases p with _ | ⟨t, p⟩
    · rfl
    · simp at h2; exact absurd h2.2.2 h3
  | empty =>
    intro n ga g x0 toks p q h h2 h3
    simp only [saveStru, Option.some.injEq] at h; subst h
    rcases n with _ | n
    · rfl
    rcases p with _ | ⟨t, p⟩
    · rfl
    · simp at h2; exact absurd h2.2.2 h3
  | atomic s =>
    intro n ga g x0 toks p q h h2 h3
    simp only [saveStru, Option.map_eq_some_iff] at h; obtain ⟨b, hb, rfl⟩ := h
    rcases n with _ | n
    · rfl
    rcases p with _ | ⟨t, p⟩
    · rfl
    simp only [List.cons_append, List.cons.injEq] at h2
    obtain ⟨rfl, h2⟩ := h2
    simpa [loadStru] using leaf_trunc ok_Atomic (g := g) (d := default) hb h2 h3 .atomic x0
  | periodic s =>
    intro n ga g x0 toks p q h h2 h3
    simp only [saveStru, Option.map_eq_some_iff] at h; obtain ⟨b, hb, rfl⟩ := h
    rcases n with _ | n
    · rfl
    rcases p with _ | ⟨t, p⟩
    · rfl
    simp only [List.cons_append, List.cons.injEq] at h2
    obtain ⟨rfl, h2⟩ := h2
    simpa [loadStru] using leaf_trunc ok_Periodic (g := g) (d := default) hb h2 h3 .periodic x0
  | crystal s =>
    intro n ga g x0 toks p q h h2 h3
    simp only [saveStru, Option.map_eq_some_iff] at h; obtain ⟨b, hb, rfl⟩ := h
    rcases n with _ | n
    · rfl
    rcases p with _ | ⟨t, p⟩
    · rfl
    simp only [List.cons_append, List.cons.injEq] at h2
    obtain ⟨rfl, h2⟩ := h2
    simpa [loadStru] using leaf_trunc ok_Crystal (g := g) (d := default) hb h2 h3 .crystal x0
  | nometa s ih =>
    intro n ga g x0 toks p q h h2 h3
    simp only [saveStru, Option.map_eq_some_iff] at h; obtain ⟨b, hb, rfl⟩ := h
    rcases n with _ | n
    · rfl
    rcases p with _ | ⟨t, p⟩
    · rfl
    simp only [List.cons_append, List.cons.injEq] at h2
    obtain ⟨rfl, h2⟩ := h2
    simp [loadStru, ih n ga g .null b p q hb h2 h3, wrap]
  | nosymmetry s ih =>
    intro n ga g x0 toks p q h h2 h3
    simp only [saveStru, Option.map_eq_some_iff] at h; obtain ⟨b, hb, rfl⟩ := h
    rcases n with _ | n
    · rfl
    rcases p with _ | ⟨t, p⟩
    · rfl
    simp only [List.cons_append, List.cons.injEq] at h2
    obtain ⟨rfl, h2⟩ := h2
    simp [loadStru, ih n ga g .null b p q hb h2 h3, wrap]

theorem ok_Stru : Ok sStru Same := by
  constructor
  · intro ex ga g x x0 toks rest h1 h2
    have hd := depth_le x ga toks h1
    obtain ⟨g', h3, h4⟩ := loadStru_ok x (toks ++ rest).length ga g x0 toks rest (by simp; omega) h1
    exact ⟨g', x, h3, rfl, h4⟩
  · intro ga g x x0 toks p q h1 h2 h3
    exact ⟨x0, loadStru_trunc x _ ga g x0 toks p q h1 h2 h3⟩

/-! ## Components -/

theorem ok_ptr_same {τ : Type} {alts : List (Alt τ)} (hn : (alts.map Alt.name).Nodup) (h : ∀ a ∈ alts, AltOk a Same) :
    Ok (ptr alts) Same := by
  refine (ok_ptr (P := fun _ => Same) hn h).imp ?_
  intro ex x x0 y hy
  cases x with
  | none => exact hy
  | some o =>
    obtain ⟨a, ha, v, w, rfl, rfl, rfl⟩ := hy
    rfl

theorem ok_number : Ok (cls 0 fun _ => seqs [nop, sDbl]) Same := by
  refine (ok_cls (ok_cons ok_nop (ok_cons ok_dbl ok_nil))).imp ?_
  rintro ex x x0 y ⟨_, rfl, _, rfl, rfl⟩
  rfl

theorem ok_none : Ok (cls 0 fun _ => (nop : Ser Unit)) Same := (ok_cls ok_nop).imp (fun _ _ _ _ _ => rfl)

theorem ok_Baseline (nw : News) : Ok (sBaseline nw) Same := by
  refine ok_ptr_same (by simp) ?_
  intro a ha
  simp only [List.mem_cons, List.not_mem_nil, or_false] at ha
  rcases ha with rfl | rfl
  · exact ⟨ok_none, by intro o v; cases o <;> simp, fun _ _ h => h⟩
  · exact ⟨ok_number, by intro o v; cases o <;> simp, fun _ _ h => h⟩

theorem ok_Envelope (nw : News) : Ok (sEnvelope nw) Same := by
  refine ok_ptr_same (by simp) ?_
  intro a ha
  simp only [List.mem_cons, List.not_mem_nil, or_false] at ha
  rcases ha with rfl | rfl | rfl | rfl <;> exact ⟨ok_number, by intro o v; cases o <;> simp, fun _ _ h => h⟩

theorem ok_EnvelopeOwner (it : Orders) (nw : News) : Ok (sEnvelopeOwner it nw) Same := by
  refine (ok_cls (ok_cons (ok_assoc it _ (ok_pair ok_str (ok_Envelope nw))) ok_nil)).imp ?_
  rintro ex x x0 y ⟨_, rfl, rfl⟩
  rfl

theorem ok_ConstRadii (it : Orders) : Ok (sConstRadii it) Same := by
  apply Sets.same
  · unfold sConstRadii; sets
  · intro x x0; rfl

theorem ok_Radii (it : Orders) (nw : News) : Ok (sRadii it nw) Same := by
  refine ok_ptr_same (by simp) ?_
  intro a ha
  simp only [List.mem_cons, List.not_mem_nil, or_false] at ha
  subst ha
  exact ⟨ok_ConstRadii it, by intro o v; cases o <;> simp, fun _ _ h => h⟩

theorem ok_BVParam : Ok sBVParam Same := by
  apply Sets.same
  · unfold sBVParam; sets
  · intro x x0; rfl

theorem sets_bvTable0 (it : Orders) : Sets (bvTableBody it 0) (fun x x0 => ⟨x.mcustomtable, x0.matomvalence⟩) := by
  have := ok_BVParam
  have h : bvTableBody it 0 = seqs [fld(mcustomtable, assoc it (⟨"", 0, "", 0⟩, ⟨0, 0, ""⟩) sBVParam), nop] := rfl
  rw [h]
  apply Sets.congr
  · sets
  · intro x x0; rfl

theorem ok_BVTable (it : Orders) : Ok (sBVTable it) Same := by
  have := ok_BVParam
  have h : bvTableBody it 1 = seqs [fld(mcustomtable, assoc it (⟨"", 0, "", 0⟩, ⟨0, 0, ""⟩) sBVParam),
    fld(matomvalence, assoc it ("", 0) (sPair sStr sInt))] := rfl
  apply Sets.same
  · unfold sBVTable
    apply sets_cls
    rw [h]
    sets
  · intro x x0; rfl

theorem ok_BVTablePtr (it : Orders) : Ok (sBVTablePtr it) Same := by
  refine ok_ptr_same (by simp) ?_
  intro a ha
  simp only [List.mem_cons, List.not_mem_nil, or_false] at ha
  subst ha
  exact ⟨ok_BVTable it, by intro o v; simp, fun _ _ h => h⟩

/-! ## Objects with tickers -/

/-- The result is `f x x0` up to tickers (`nt` erases them), and equal to it when the clock is not behind. -/
def Upto (nt : σ → σ) (f : σ → σ → σ) : Prop → σ → σ → σ → Prop := fun ex x x0 y => nt y = nt (f x x0) ∧ (ex → y = f x x0)

theorem ok_ptr_upto {τ : Type} {alts : List (Alt τ)} (nt f : τ → τ) (P : (a : Alt τ) → Prop → a.α → a.α → a.α → Prop)
    (hn : (alts.map Alt.name).Nodup) (h : ∀ a ∈ alts, AltOk a (P a))
    (hP : ∀ a ∈ alts, ∀ ex v w, P a ex v a.new w → nt (a.inj w) = nt (f (a.inj v)) ∧ (ex → a.inj w = f (a.inj v))) :
    Ok (ptr alts) (Upto (Option.map nt) (fun x _ => x.map f)) := by
  refine (ok_ptr hn h).imp ?_
  intro ex x x0 y hy
  cases x with
  | none =>
    have : y = none := hy
    subst this
    exact ⟨rfl, fun _ => rfl⟩
  | some o =>
    obtain ⟨a, ha, v, w, rfl, rfl, hp⟩ := hy
    have := hP a ha ex v w hp
    exact ⟨by simp [this.1], fun e => by simp [this.2 e]⟩

/-- Tickers erased. -/
def Gauss.nt (x : Gauss) : Gauss := { x with mticker := (0, 0) }
/-- Tickers erased. -/
def Cropped.nt (x : Cropped) : Cropped := { x with base := x.base.nt }
/-- Tickers erased. -/
def Profile.nt : Profile → Profile
  | .gaussian p => .gaussian p.nt
  | .cropped p => .cropped p.nt
  | .other => .other
/-- Tickers erased. -/
def Width.nt : Width → Width
  | .constant w => .constant { w with mticker := (0, 0) }
  | .debyeWaller _ => .debyeWaller (0, 0)
  | .jeong w => .jeong { w with mticker := (0, 0) }
  | .other => .other
/-- Tickers erased. -/
def WidthOwner.nt (x : WidthOwner) : WidthOwner := ⟨x.mpwmodel.map Width.nt, (0, 0)⟩
/-- Tickers erased. -/
def SfTable.nt (x : SfTable) : SfTable := { x with mticker := (0, 0) }
/-- Tickers erased. -/
def SftOwner.nt (x : SftOwner) : SftOwner := ⟨x.msftable.map (fun t => (t.1, t.2.nt)), (0, 0)⟩
/-- Tickers erased. -/
def EvBasic.nt (x : EvBasic) : EvBasic := { x with mvalue_ticker := (0, 0) }
/-- Tickers erased. -/
def EvOptimized.nt (x : EvOptimized) : EvOptimized := { x with base := x.base.nt }
/-- Tickers erased. -/
def Evaluator.nt : Evaluator → Evaluator
  | .basic e => .basic e.nt
  | .optimized e => .optimized e.nt
  | .check e => .check e.nt
/-- Tickers erased. -/
def PQ.nt (x : PQ) : PQ := { x with mevaluator := x.mevaluator.map Evaluator.nt, mticker := (0, 0) }

/-- The evaluator type used last is forgotten. -/
def Evaluator.unused : Evaluator → Evaluator
  | .basic e => .basic { e with mtypeused := .none }
  | .optimized e => .optimized { e with base := { e.base with mtypeused := .none } }
  | .check e => .check { e with base := { e.base with mtypeused := .none } }

/-- The calculator with an evaluator that has not been used. -/
def PQ.unused (x : PQ) : PQ := { x with mevaluator := x.mevaluator.map Evaluator.unused }

theorem ok_Gauss : Ok sGauss (Upto Gauss.nt (fun x _ => x)) := by
  refine (ok_cls (ok_cons (ok_cls (ok_cons (ok_memb ok_tick) (ok_cons (ok_memb ok_dbl) ok_nil)))
    (ok_cons (ok_memb ok_dbl) ok_nil))).imp ?_
  rintro ex x x0 y ⟨_, ⟨_, ⟨t, ht, rfl⟩, _, ⟨_, rfl, rfl⟩, rfl⟩, _, ⟨_, rfl, rfl⟩, rfl⟩
  refine ⟨rfl, fun e => ?_⟩
  rw [ht e]

theorem ok_Cropped : Ok sCropped (Upto Cropped.nt (fun x _ => x)) := by
  refine (ok_cls (ok_cons (ok_memb ok_Gauss) (ok_cons (ok_memb ok_dbl) ok_nil))).imp ?_
  rintro ex x x0 y ⟨_, ⟨t, ht, rfl⟩, _, ⟨_, rfl, rfl⟩, rfl⟩
  refine ⟨?_, fun e => ?_⟩
  · simp [Cropped.nt, ht.1]
  · rw [ht.2 e]

theorem ok_Profile (nw : News) : Ok (sProfile nw) (Upto (Option.map Profile.nt) (fun x _ => x)) := by
  have h := ok_ptr_upto (alts := [
    (⟨Gauss, "GaussianProfile", sGauss, ⟨(0, 0), nw.dbl "eps", nw.dbl "halfbound"⟩, nw.clicks "GaussianProfile", .gaussian,
     fun | .gaussian p => some p | _ => none⟩ : Alt Profile),
   ⟨Cropped, "CroppedGaussianProfile", sCropped, ⟨⟨(0, 0), nw.dbl "eps", nw.dbl "halfbound"⟩, nw.dbl "scale"⟩,
     nw.clicks "CroppedGaussianProfile", .cropped, fun | .cropped p => some p | _ => none⟩]) Profile.nt (fun x => x)
    (fun a ex v _ w => Profile.nt (a.inj w) = Profile.nt (a.inj v) ∧ (ex → a.inj w = a.inj v)) (by simp)
    (by
      intro a ha
      simp only [List.mem_cons, List.not_mem_nil, or_false] at ha
      rcases ha with rfl | rfl
      · refine ⟨ok_Gauss.imp ?_, by intro o v; cases o <;> simp, fun _ _ h => nw.clicks_le _ _ _ h⟩
        intro ex x x0 y hy
        exact ⟨by simp [Profile.nt, hy.1], fun e => by rw [hy.2 e]⟩
      · refine ⟨ok_Cropped.imp ?_, by intro o v; cases o <;> simp, fun _ _ h => nw.clicks_le _ _ _ h⟩
        intro ex x x0 y hy
        exact ⟨by simp [Profile.nt, hy.1], fun e => by rw [hy.2 e]⟩)
    (by intro a ha ex v w h; exact h)
  refine Ok.imp h ?_
  intro ex x x0 y hy
  simpa [Upto] using hy

theorem ok_ConstWidth : Ok sConstWidth (fun ex x _ y => y.mwidth = x.mwidth ∧ (ex → y = x)) := by
  refine (ok_cls (ok_cons (ok_cls (ok_cons (ok_memb ok_tick) ok_nil)) (ok_cons (ok_memb ok_dbl) ok_nil))).imp ?_
  rintro ex x x0 y ⟨_, ⟨_, ⟨t, ht, rfl⟩, rfl⟩, _, ⟨_, rfl, rfl⟩, rfl⟩
  exact ⟨rfl, fun e => by rw [ht e]⟩

theorem ok_Jeong : Ok sJeong (fun ex x _ y => ({ y with mticker := (0, 0) } : Jeong) = { x with mticker := (0, 0) } ∧
    (ex → y = x)) := by
  refine (ok_cls (ok_cons (ok_cls (ok_cons (ok_cls (ok_cons (ok_memb ok_tick) ok_nil)) ok_nil)) (ok_cons (ok_memb ok_dbl)
    (ok_cons (ok_memb ok_dbl) (ok_cons (ok_memb ok_dbl) (ok_cons (ok_memb ok_dbl) ok_nil)))))).imp ?_
  rintro ex x x0 y ⟨_, ⟨_, ⟨_, ⟨t, ht, rfl⟩, rfl⟩, rfl⟩, _, ⟨_, rfl, rfl⟩, _, ⟨_, rfl, rfl⟩, _, ⟨_, rfl, rfl⟩, _, ⟨_, rfl, rfl⟩, rfl⟩
  exact ⟨rfl, fun e => by rw [ht e]⟩

theorem ok_DW : Ok (cls 0 fun _ => seqs [cls 0 fun _ => seqs [sTick]]) TickSame := by
  refine (ok_cls (ok_cons (ok_cls (ok_cons ok_tick ok_nil)) ok_nil)).imp ?_
  rintro ex x x0 y ⟨_, ⟨_, h, rfl⟩, rfl⟩
  exact h

theorem ok_Width (nw : News) : Ok (sWidth nw) (Upto (Option.map Width.nt) (fun x _ => x)) := by
  have h := ok_ptr_upto (alts := [
   (⟨ConstWidth, "ConstantPeakWidth", sConstWidth, ⟨(0, 0), nw.dbl "width"⟩, nw.clicks "ConstantPeakWidth", .constant,
     fun | .constant w => some w | _ => none⟩ : Alt Width),
   ⟨Tick, "DebyeWallerPeakWidth", cls 0 fun _ => seqs [cls 0 fun _ => seqs [sTick]], (0, 0),
     nw.clicks "DebyeWallerPeakWidth", .debyeWaller, fun | .debyeWaller t => some t | _ => none⟩,
   ⟨Jeong, "JeongPeakWidth", sJeong, ⟨(0, 0), nw.dbl "delta1", nw.dbl "delta2", nw.dbl "qbroad", nw.dbl "qbroadsep"⟩,
     nw.clicks "JeongPeakWidth", .jeong, fun | .jeong w => some w | _ => none⟩]) Width.nt (fun x => x)
    (fun a ex v _ w => Width.nt (a.inj w) = Width.nt (a.inj v) ∧ (ex → a.inj w = a.inj v)) (by simp)
    (by
      intro a ha
      simp only [List.mem_cons, List.not_mem_nil, or_false] at ha
      rcases ha with rfl | rfl | rfl
      · refine ⟨ok_ConstWidth.imp ?_, by intro o v; cases o <;> simp, fun _ _ h => nw.clicks_le _ _ _ h⟩
        intro ex x x0 y hy
        exact ⟨by simp [Width.nt, hy.1], fun e => by rw [hy.2 e]⟩
      · refine ⟨ok_DW.imp ?_, by intro o v; cases o <;> simp, fun _ _ h => nw.clicks_le _ _ _ h⟩
        intro ex x x0 y hy
        exact ⟨by simp [Width.nt], fun e => by rw [hy e]⟩
      · refine ⟨ok_Jeong.imp ?_, by intro o v; cases o <;> simp, fun _ _ h => nw.clicks_le _ _ _ h⟩
        intro ex x x0 y hy
        exact ⟨by simp only [Width.nt, hy.1], fun e => by rw [hy.2 e]⟩)
    (by intro a ha ex v w h; exact h)
  refine Ok.imp h ?_
  intro ex x x0 y hy
  simpa [Upto] using hy

theorem ok_WidthOwner (nw : News) : Ok (sWidthOwner nw) (Upto WidthOwner.nt (fun x _ => x)) := by
  refine (ok_cls (ok_cons (ok_memb (ok_Width nw)) (ok_cons (ok_memb ok_tick) ok_nil))).imp ?_
  rintro ex x x0 y ⟨_, ⟨w, hw, rfl⟩, _, ⟨t, ht, rfl⟩, rfl⟩
  refine ⟨?_, fun e => ?_⟩
  · have := hw.1
    simp only [WidthOwner.nt, this]
  · rw [ht e, hw.2 e]

theorem ok_SfTable (it : Orders) : Ok (sSfTable it) (Upto SfTable.nt (fun x _ => x)) := by
  refine (ok_cls (ok_cons (ok_cls (ok_cons (ok_memb (ok_assoc it _ (ok_pair ok_str (ok_pair ok_str ok_dbl))))
    (ok_cons (ok_memb ok_tick) ok_nil))) ok_nil)).imp ?_
  rintro ex x x0 y ⟨_, ⟨_, ⟨_, rfl, rfl⟩, _, ⟨t, ht, rfl⟩, rfl⟩, rfl⟩
  exact ⟨rfl, fun e => by rw [ht e]⟩

theorem sftAlt_ok (it : Orders) (nw : News) (k : SftKind) (n : String) : AltOk (sftAlt it nw k n) (Upto SfTable.nt (fun x _ => x)) := by
  refine ⟨ok_SfTable it, ?_, fun _ _ h => nw.clicks_le _ _ _ h⟩
  rintro ⟨k', t⟩ (v : SfTable)
  show (if k' = k then some t else none) = some v ↔ (k', t) = (k, v)
  by_cases h : k' = k <;> simp [h]

theorem ok_Sft (it : Orders) (nw : News) :
    Ok (sSft it nw) (Upto (Option.map (fun t => (t.1, t.2.nt))) (fun x _ => x)) := by
  have h := ok_ptr_upto (alts := [sftAlt it nw .xray "SFTXray", sftAlt it nw .electron "SFTElectron", sftAlt it nw .neutron "SFTNeutron",
    sftAlt it nw .electronNumber "SFTElectronNumber"]) (fun t => (t.1, t.2.nt)) (fun x => x)
    (fun a ex v _ w => (fun t : SftKind × SfTable => (t.1, t.2.nt)) (a.inj w) = (fun t : SftKind × SfTable => (t.1, t.2.nt)) (a.inj v) ∧
      (ex → a.inj w = a.inj v)) (by simp [sftAlt])
    (by
      have key : ∀ k n, AltOk (sftAlt it nw k n) (fun ex v _ w =>
          (fun t : SftKind × SfTable => (t.1, t.2.nt)) ((sftAlt it nw k n).inj w) =
            (fun t : SftKind × SfTable => (t.1, t.2.nt)) ((sftAlt it nw k n).inj v) ∧
          (ex → (sftAlt it nw k n).inj w = (sftAlt it nw k n).inj v)) := by
        intro k n
        have := sftAlt_ok it nw k n
        refine ⟨this.ser.imp ?_, this.prj, this.clock⟩
        intro ex x x0 y hy
        refine ⟨?_, fun e => by rw [hy.2 e]⟩
        have h1 := hy.1
        simp only [sftAlt] at h1 ⊢
        simp only [h1]
      intro a ha
      simp only [List.mem_cons, List.not_mem_nil, or_false] at ha
      rcases ha with rfl | rfl | rfl | rfl <;> exact key _ _)
    (by intro a ha ex v w h; exact h)
  refine Ok.imp h ?_
  intro ex x x0 y hy
  simpa [Upto] using hy

theorem ok_SftOwner (it : Orders) (nw : News) : Ok (sSftOwner it nw) (Upto SftOwner.nt (fun x _ => x)) := by
  refine (ok_cls (ok_cons (ok_memb (ok_Sft it nw)) (ok_cons (ok_memb ok_tick) ok_nil))).imp ?_
  rintro ex x x0 y ⟨_, ⟨w, hw, rfl⟩, _, ⟨t, ht, rfl⟩, rfl⟩
  refine ⟨?_, fun e => ?_⟩
  · have := hw.1
    simp only [SftOwner.nt, this]
  · rw [ht e, hw.2 e]

theorem ok_EvBasic : Ok sEvBasic (Upto EvBasic.nt (fun x x0 => { x with mtypeused := x0.mtypeused })) := by
  refine (ok_cls (ok_cons (ok_memb ok_int) (ok_cons (ok_memb ok_int) (ok_cons (ok_memb ok_int)
    (ok_cons (ok_memb ok_tick) ok_nil))))).imp ?_
  rintro ex x x0 y ⟨_, ⟨_, rfl, rfl⟩, _, ⟨_, rfl, rfl⟩, _, ⟨_, rfl, rfl⟩, _, ⟨t, ht, rfl⟩, rfl⟩
  exact ⟨rfl, fun e => by rw [ht e]⟩

theorem ok_EvOptimized : Ok sEvOptimized (Upto EvOptimized.nt
    (fun x x0 => { x with base := { x.base with mtypeused := x0.base.mtypeused } })) := by
  refine (ok_cls (ok_cons (ok_memb ok_EvBasic) (ok_cons (ok_memb ok_Stru) ok_nil))).imp ?_
  rintro ex x x0 y ⟨_, ⟨b, hb, rfl⟩, _, ⟨_, rfl, rfl⟩, rfl⟩
  refine ⟨?_, fun e => by rw [hb.2 e]⟩
  have h := hb.1
  simp only [EvOptimized.nt, h]

theorem ok_Evaluator : Ok sEvaluator (Upto (Option.map Evaluator.nt) (fun x _ => x.map Evaluator.unused)) := by
  refine ok_ptr_upto (alts := [
   (⟨EvBasic, "PQEvaluatorBasic", sEvBasic, newEvBasic, id, .basic, fun | .basic e => some e | _ => none⟩ : Alt Evaluator),
   ⟨EvOptimized, "PQEvaluatorOptimized", sEvOptimized, ⟨newEvBasic, .null⟩, id, .optimized,
     fun | .optimized e => some e | _ => none⟩]) Evaluator.nt Evaluator.unused
    (fun a ex v d w => d = a.new → Evaluator.nt (a.inj w) = Evaluator.nt (Evaluator.unused (a.inj v)) ∧
      (ex → a.inj w = Evaluator.unused (a.inj v)))
    (by simp) ?_ (by intro a ha ex v w h; exact h rfl)
  intro a ha
  simp only [List.mem_cons, List.not_mem_nil, or_false] at ha
  rcases ha with rfl | rfl
  · refine ⟨ok_EvBasic.imp ?_, by intro o v; cases o <;> simp, fun _ _ h => h⟩
    rintro ex x x0 y hy hd
    simp only at hd
    subst hd
    refine ⟨?_, fun e => by rw [hy.2 e]; rfl⟩
    have h := hy.1
    simp only [Evaluator.nt, Evaluator.unused, h]
    rfl
  · refine ⟨ok_EvOptimized.imp ?_, by intro o v; cases o <;> simp, fun _ _ h => h⟩
    rintro ex x x0 y hy hd
    simp only at hd
    subst hd
    refine ⟨?_, fun e => by rw [hy.2 e]; rfl⟩
    have h := hy.1
    simp only [Evaluator.nt, Evaluator.unused, h]
    rfl

theorem ok_Quantity : Ok sQuantity Same := by
  refine (ok_cls (ok_cons (ok_vec 0 ok_dbl) ok_nil)).imp ?_
  rintro ex x x0 y ⟨_, rfl, rfl⟩
  rfl

theorem ok_PQ (it : Orders) : Ok (sPQ it) (Upto PQ.nt (fun x _ => x.unused)) := by
  refine (ok_cls (ok_cons (ok_memb ok_Quantity) (ok_cons (ok_memb ok_Stru) (ok_cons (ok_memb ok_dbl) (ok_cons (ok_memb ok_dbl)
    (ok_cons (ok_memb ok_Evaluator) (ok_cons (ok_memb ok_bool)
    (ok_cons (ok_memb (ok_assoc it _ (ok_unit (ok_pair ok_int ok_int))))
    (ok_cons (ok_memb (ok_assoc it _ (ok_pair ok_int ok_bool)))
    (ok_cons (ok_memb (ok_assoc it _ (ok_pair (ok_pair ok_str ok_str) ok_bool)))
    (ok_cons (ok_memb ok_int) (ok_cons (ok_memb ok_tick) ok_nil)))))))))))).imp ?_
  rintro ex x x0 y ⟨_, ⟨_, rfl, rfl⟩, _, ⟨_, rfl, rfl⟩, _, ⟨_, rfl, rfl⟩, _, ⟨_, rfl, rfl⟩, _, ⟨v, hv, rfl⟩, _, ⟨_, rfl, rfl⟩,
    _, ⟨_, rfl, rfl⟩, _, ⟨_, rfl, rfl⟩, _, ⟨_, rfl, rfl⟩, _, ⟨_, rfl, rfl⟩, _, ⟨t, ht, rfl⟩, rfl⟩
  refine ⟨?_, fun e => ?_⟩
  · have h := hv.1
    simp only [PQ.nt, PQ.unused, h]
  · rw [ht e, hv.2 e]
    rfl

end Verif.Archive
