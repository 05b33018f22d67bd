import Verif.Model.Attributes
import Mathlib.Tactic.Tauto
import Mathlib.Data.List.Nodup
/-! C21: named double attributes. -/
namespace Verif.Attr
open Verif.AssocMap

variable {S K : Type}

/-- C21 (specification). Attribute `name` is offered by the objects in this list of visits. -/
def owners (h : Heap S K) (ids : List Nat) (name : String) : List Nat :=
  ids.filter fun i => (find (h i).attrs name).isSome

/-- C21 (specification). `a` is the attribute `name` and object `i` is its only provider. -/
def Provides (h : Heap S K) (ids : List Nat) (name : String) (i : Nat) (a : Attr S K) : Prop :=
  owners h ids name = [i] ∧ find (h i).attrs name = some a

theorem count_aux (h : Heap S K) (name : String) (ids : List Nat) (n : Nat) :
    ids.foldl (fun n i => n + if (find (h i).attrs name).isSome then 1 else 0) n =
      n + (owners h ids name).length := by
  induction ids generalizing n with
  | nil => simp [owners]
  | cons i ids ih =>
    simp only [List.foldl_cons, ih, owners, List.filter_cons]
    split
    · simp only [List.length_cons]; omega
    · omega

theorem count_eq (h : Heap S K) (ids : List Nat) (name : String) :
    count h ids name = (owners h ids name).length := by
  unfold count; rw [count_aux]; omega

theorem check_eq (h : Heap S K) (ids : List Nat) (name : String) :
    (check h ids name = some .unknown ↔ owners h ids name = []) ∧
    (check h ids name = some .duplicate ↔ 2 ≤ (owners h ids name).length) ∧
    (check h ids name = none ↔ ∃ i, owners h ids name = [i]) := by
  unfold check
  rw [count_eq]
  rcases h0 : owners h ids name with _ | ⟨a, _ | ⟨b, l⟩⟩ <;> simp

theorem owners_nil_of_not (h : Heap S K) (ids : List Nat) (name : String)
    (h0 : owners h ids name = []) (i : Nat) (hi : i ∈ ids) : find (h i).attrs name = none := by
  unfold owners at h0
  rw [List.filter_eq_nil_iff] at h0
  have := h0 i hi
  simpa using this

theorem split_owner (h : Heap S K) (ids : List Nat) (name : String) (i : Nat)
    (h0 : owners h ids name = [i]) : ∃ l r, ids = l ++ i :: r ∧ owners h l name = [] ∧ owners h r name = [] := by
  induction ids with
  | nil => simp [owners] at h0
  | cons j ids ih =>
    unfold owners at h0
    rw [List.filter_cons] at h0
    split at h0
    · rename_i hj
      rw [List.cons.injEq] at h0
      obtain ⟨rfl, h1⟩ := h0
      exact ⟨[], ids, rfl, rfl, h1⟩
    · rename_i hj
      obtain ⟨l, r, rfl, h1, h2⟩ := ih h0
      refine ⟨j :: l, r, rfl, ?_, h2⟩
      unfold owners at h1 ⊢
      rw [List.filter_cons, if_neg hj, h1]

theorem getVisit_append (h : Heap S K) (name : String) (l r : List Nat) (v : Option K)
    (hr : owners h r name = []) :
    (l ++ r).foldl (getStep h name) v = l.foldl (getStep h name) v := by
  rw [List.foldl_append]
  generalize l.foldl (getStep h name) v = w
  induction r with
  | nil => rfl
  | cons i r ih =>
    have h1 := owners_nil_of_not h (i :: r) name hr i (by simp)
    simp only [List.foldl_cons, getStep, h1]
    apply ih
    unfold owners at hr ⊢
    rw [List.filter_cons] at hr
    split at hr
    · cases hr
    · exact hr

/-- C21. Reading an attribute with a single provider returns what its getter reports; no
uninitialised value is returned. -/
theorem get_ok (h : Heap S K) (ids : List Nat) (name : String) (i : Nat) (a : Attr S K)
    (hp : Provides h ids name i a) : getDoubleAttr h ids name = .ok (some (a.get (h i).data)) := by
  have hc := (check_eq h ids name).2.2.2 ⟨i, hp.1⟩
  unfold getDoubleAttr
  rw [hc]
  obtain ⟨l, r, rfl, h1, h2⟩ := split_owner h ids name i hp.1
  simp only
  unfold getVisit
  have e : l ++ i :: r = (l ++ [i]) ++ r := by simp
  rw [e, getVisit_append h name (l ++ [i]) r none h2, List.foldl_append]
  simp only [List.foldl_cons, List.foldl_nil, getStep, hp.2]

/-- C21. Errors of `getDoubleAttr`: an unknown name exactly when no visited object has it, an
ambiguous name exactly when more than one visit offers it; every other read succeeds. -/
theorem get_error (h : Heap S K) (ids : List Nat) (name : String) :
    (getDoubleAttr h ids name = .error .unknown ↔ ∀ i ∈ ids, find (h i).attrs name = none) ∧
    (getDoubleAttr h ids name = .error .duplicate ↔ 2 ≤ (owners h ids name).length) ∧
    ((∃ v, getDoubleAttr h ids name = .ok v) ↔ ∃ i a, Provides h ids name i a) := by
  have hc := check_eq h ids name
  have hnil : owners h ids name = [] ↔ ∀ i ∈ ids, find (h i).attrs name = none := by
    unfold owners
    rw [List.filter_eq_nil_iff]
    simp
  unfold getDoubleAttr
  refine ⟨?_, ?_, ?_⟩
  · rw [← hnil, ← hc.1]
    cases hx : check h ids name <;> simp
  · rw [← hc.2.1]
    cases hx : check h ids name <;> simp
  · have : (∃ i a, Provides h ids name i a) ↔ ∃ i, owners h ids name = [i] := by
      constructor
      · rintro ⟨i, a, hp⟩; exact ⟨i, hp.1⟩
      · rintro ⟨i, hi⟩
        have hm : i ∈ owners h ids name := by rw [hi]; simp
        unfold owners at hm
        have := (List.mem_filter.1 hm).2
        obtain ⟨a, ha⟩ := Option.isSome_iff_exists.1 this
        exact ⟨i, a, hi, ha⟩
    rw [this, ← hc.2.2]
    cases hx : check h ids name <;> simp

theorem setVisit_skip (h : Heap S K) (name : String) (x : K) (l r : List Nat)
    (hl : owners h l name = []) : setVisit h (l ++ r) name x = setVisit h r name x := by
  induction l with
  | nil => rfl
  | cons i l ih =>
    have h1 := owners_nil_of_not h (i :: l) name hl i (by simp)
    rw [List.cons_append, setVisit]
    simp only [h1]
    apply ih
    unfold owners at hl ⊢
    rw [List.filter_cons] at hl
    split at hl
    · cases hl
    · exact hl

theorem attrs_setData (h : Heap S K) (i : Nat) (d : S) (j : Nat) :
    (setData h i d j).attrs = (h j).attrs := by
  unfold setData; split
  · rename_i hj; rw [hj]
  · rfl

theorem owners_setData (h : Heap S K) (i : Nat) (d : S) (ids : List Nat) (name : String) :
    owners (setData h i d) ids name = owners h ids name := by
  unfold owners
  congr 1
  funext j
  rw [attrs_setData]

/-- C21. `setDoubleAttr`: with a single provider it runs the setter of that attribute once on that
object and touches no other object; a read-only attribute gives the read-only error and an exception
of the setter is passed on; an unknown or ambiguous name gives its error and changes nothing. -/
theorem set_spec (h : Heap S K) (ids : List Nat) (name : String) (x : K) :
    ((∀ i ∈ ids, find (h i).attrs name = none) → setDoubleAttr h ids name x = (h, some .unknown)) ∧
    (2 ≤ (owners h ids name).length → setDoubleAttr h ids name x = (h, some .duplicate)) ∧
    (∀ i a, Provides h ids name i a → a.set = none → setDoubleAttr h ids name x = (h, some .readonly)) ∧
    (∀ i a f, Provides h ids name i a → a.set = some f →
      setDoubleAttr h ids name x =
        (fun j => if j = i then { h i with data := (f x (h i).data).1 } else h j,
          if (f x (h i).data).2 then some .setter else none)) := by
  have hc := check_eq h ids name
  have hnil : owners h ids name = [] ↔ ∀ i ∈ ids, find (h i).attrs name = none := by
    unfold owners
    rw [List.filter_eq_nil_iff]
    simp
  refine ⟨?_, ?_, ?_, ?_⟩
  · intro h0
    unfold setDoubleAttr
    rw [hc.1.2 (hnil.2 h0)]
  · intro h0
    unfold setDoubleAttr
    rw [hc.2.1.2 h0]
  · intro i a hp ha
    unfold setDoubleAttr
    rw [hc.2.2.2 ⟨i, hp.1⟩]
    obtain ⟨l, r, rfl, h1, h2⟩ := split_owner h ids name i hp.1
    simp only
    rw [setVisit_skip h name x l _ h1, setVisit]
    simp only [hp.2, ha]
  · intro i a f hp ha
    unfold setDoubleAttr
    rw [hc.2.2.2 ⟨i, hp.1⟩]
    obtain ⟨l, r, rfl, h1, h2⟩ := split_owner h ids name i hp.1
    simp only
    rw [setVisit_skip h name x l _ h1, setVisit]
    simp only [hp.2, ha]
    by_cases ht : (f x (h i).data).2
    · simp only [ht, if_true]; rfl
    · rw [if_neg ht, if_neg ht]
      have := setVisit_skip (setData h i (f x (h i).data).1) name x r []
        (by rw [owners_setData]; exact h2)
      rw [List.append_nil] at this
      rw [this]; rfl

/-- C21. Failed calls change nothing, provided the setter that throws has not modified its object. -/
theorem set_failed (h : Heap S K) (ids : List Nat) (name : String) (x : K) (e : Err)
    (strong : ∀ i a f, find (h i).attrs name = some a → a.set = some f →
      (f x (h i).data).2 = true → (f x (h i).data).1 = (h i).data)
    (he : (setDoubleAttr h ids name x).2 = some e) : (setDoubleAttr h ids name x).1 = h := by
  obtain ⟨s1, s2, s3, s4⟩ := set_spec h ids name x
  rcases hc : check h ids name with _ | e'
  · obtain ⟨i, hi⟩ := (check_eq h ids name).2.2.1 hc
    have hm : i ∈ owners h ids name := by rw [hi]; simp
    obtain ⟨a, ha⟩ := Option.isSome_iff_exists.1 (List.mem_filter.1 hm).2
    rcases hs : a.set with _ | f
    · rw [s3 i a ⟨hi, ha⟩ hs]
    · rw [s4 i a f ⟨hi, ha⟩ hs] at he ⊢
      simp only at he ⊢
      by_cases ht : (f x (h i).data).2 = true
      · funext j
        rw [strong i a f ha hs ht]
        split
        · rename_i hj; rw [hj]
        · rfl
      · rw [if_neg ht] at he; cases he
  · unfold setDoubleAttr; rw [hc]

/-- C21 (specification). A setter that stores: after an accepted call the getter returns the
normalised value `norm x`. -/
def Stores (a : Attr S K) (norm : K → K) : Prop :=
  ∀ f, a.set = some f → ∀ x d, (f x d).2 = false → a.get (f x d).1 = norm x

/-- C21 (specification). Setting `a` does not show in `b` (they are not two views of the same datum). -/
def Independent (a b : Attr S K) : Prop := ∀ f, a.set = some f → ∀ x d, b.get (f x d).1 = b.get d

/-- C21. Set then get: an accepted `setDoubleAttr` is read back; every attribute of another object,
and every independent attribute of the same object, reads as before; no name changes its status. -/
theorem get_after_set (h h' : Heap S K) (ids : List Nat) (name : String) (x : K) (i : Nat) (a : Attr S K)
    (hp : Provides h ids name i a) (hs : setDoubleAttr h ids name x = (h', none)) :
    (∀ norm, Stores a norm → getDoubleAttr h' ids name = .ok (some (norm x))) ∧
    (∀ name' j b, Provides h ids name' j b → (j ≠ i ∨ Independent a b) →
      getDoubleAttr h' ids name' = getDoubleAttr h ids name') ∧
    (∀ name' j b, Provides h' ids name' j b ↔ Provides h ids name' j b) := by
  obtain ⟨s1, s2, s3, s4⟩ := set_spec h ids name x
  rcases hset : a.set with _ | f
  · rw [s3 i a hp hset] at hs; cases hs
  rw [s4 i a f hp hset] at hs
  rw [Prod.mk.injEq] at hs
  obtain ⟨hh, ht⟩ := hs
  have ht' : (f x (h i).data).2 = false := by
    rcases hb : (f x (h i).data).2 with _ | _
    · rfl
    · rw [hb, if_pos rfl] at ht; cases ht
  have hsd : h' = setData h i (f x (h i).data).1 := by rw [← hh]; rfl
  have hprov : ∀ name' j b, Provides h' ids name' j b ↔ Provides h ids name' j b := by
    intro name' j b
    unfold Provides
    rw [hsd, owners_setData, attrs_setData]
  refine ⟨?_, ?_, hprov⟩
  · intro norm hst
    rw [get_ok h' ids name i a ((hprov name i a).2 hp), hsd]
    unfold setData
    rw [if_pos rfl, hst f hset x _ ht']
  · intro name' j b hb hind
    rw [get_ok h' ids name' j b ((hprov name' j b).2 hb), get_ok h ids name' j b hb, hsd]
    unfold setData
    by_cases hj : j = i
    · rcases hind with h1 | h1
      · exact absurd hj h1
      · rw [if_pos hj, hj, h1 f hset]
    · rw [if_neg hj]

/-- C21. `hasDoubleAttr` and the two name lists tell which reads and writes are accepted: a name is
listed iff some visited object has it, and it is listed as writable iff some visited object has it
with a setter. -/
theorem names_spec (h : Heap S K) (ids : List Nat) (name : String)
    (hn : ∀ i ∈ ids, (keys (h i).attrs).Nodup) :
    (hasDoubleAttr h ids name = true ↔ ∃ i ∈ ids, ∃ a, find (h i).attrs name = some a) ∧
    (name ∈ names false h ids ↔ hasDoubleAttr h ids name = true) ∧
    (name ∈ names true h ids ↔ ∃ i ∈ ids, ∃ a f, find (h i).attrs name = some a ∧ a.set = some f) := by
  have h1 : hasDoubleAttr h ids name = true ↔ ∃ i ∈ ids, ∃ a, find (h i).attrs name = some a := by
    unfold hasDoubleAttr
    rw [count_eq, decide_eq_true_iff]
    constructor
    · intro h0
      rcases hc : owners h ids name with _ | ⟨i, l⟩
      · rw [hc] at h0; exact absurd rfl h0
      · have hm : i ∈ owners h ids name := by rw [hc]; simp
        obtain ⟨m1, m2⟩ := List.mem_filter.1 hm
        exact ⟨i, m1, Option.isSome_iff_exists.1 m2⟩
    · rintro ⟨i, hi, a, ha⟩ h0
      have := List.eq_nil_of_length_eq_zero h0
      have := owners_nil_of_not h ids name this i hi
      rw [this] at ha; cases ha
  refine ⟨h1, ?_, ?_⟩
  · rw [h1]
    unfold names
    rw [List.mem_flatMap]
    constructor
    · rintro ⟨i, hi, hm⟩
      obtain ⟨⟨n, a⟩, he, rfl⟩ := List.mem_map.1 hm
      have he' := (List.mem_filter.1 he).1
      exact ⟨i, hi, a, (find_eq_some_iff (hn i hi)).2 he'⟩
    · rintro ⟨i, hi, a, ha⟩
      refine ⟨i, hi, List.mem_map.2 ⟨(name, a), List.mem_filter.2 ⟨mem_of_find ha, by simp⟩, rfl⟩⟩
  · unfold names
    rw [List.mem_flatMap]
    constructor
    · rintro ⟨i, hi, hm⟩
      obtain ⟨⟨n, a⟩, he, rfl⟩ := List.mem_map.1 hm
      obtain ⟨he', hw⟩ := List.mem_filter.1 he
      rcases hs : a.set with _ | f
      · simp [hs] at hw
      · exact ⟨i, hi, a, f, (find_eq_some_iff (hn i hi)).2 he', hs⟩
    · rintro ⟨i, hi, a, f, ha, hs⟩
      refine ⟨i, hi, List.mem_map.2 ⟨(name, a), List.mem_filter.2 ⟨mem_of_find ha, by simp [hs]⟩, rfl⟩⟩

/-- A sequence of `setDoubleAttr` calls, exceptions being caught by the caller. -/
def runSets (h : Heap S K) (ids : List Nat) : List (String × K) → Heap S K
  | [] => h
  | (n, x) :: cs => runSets (setDoubleAttr h ids n x).1 ids cs

/-- C21 (specification). The map semantics: the value that a sequence of assignments leaves under
`name`, starting from `v`; an assignment that `accepts` rejects has no effect. -/
def lastValue (accepts : String → K → Bool) (norm : String → K → K) (name : String) (v : K) :
    List (String × K) → K
  | [] => v
  | (n, x) :: cs => lastValue accepts norm name (if n = name ∧ accepts n x then norm n x else v) cs

/-- C21. After every history of `setDoubleAttr` calls an attribute reads as in a checked map: the
last accepted value assigned under its name, or its initial value. Assumes a class whose attributes
are pairwise independent, whose setters accept or reject a value regardless of the state and reject
without effect. -/
theorem attr_map (h : Heap S K) (ids : List Nat) (cs : List (String × K))
    (accepts : String → K → Bool) (norm : String → K → K)
    (hset : ∀ n i a, Provides h ids n i a →
      (a.set = none ∧ ∀ x, accepts n x = false) ∨
      ∃ f, a.set = some f ∧ Stores a (norm n) ∧
        ∀ x d, ((f x d).2 = !accepts n x) ∧ (accepts n x = false → (f x d).1 = d))
    (hind : ∀ n n' i j a b, Provides h ids n i a → Provides h ids n' j b → n ≠ n' → j ≠ i ∨ Independent a b)
    (name : String) (i : Nat) (a : Attr S K) (hp : Provides h ids name i a) :
    getDoubleAttr (runSets h ids cs) ids name =
      .ok (some (lastValue accepts norm name (a.get (h i).data) cs)) := by
  induction cs generalizing h with
  | nil => exact get_ok h ids name i a hp
  | cons c cs ih =>
    obtain ⟨n, x⟩ := c
    rw [runSets, lastValue]
    have key : (∀ n' j b, Provides (setDoubleAttr h ids n x).1 ids n' j b ↔ Provides h ids n' j b) ∧
        a.get ((setDoubleAttr h ids n x).1 i).data =
          if n = name ∧ accepts n x then norm n x else a.get (h i).data := by
      obtain ⟨s1, s2, s3, s4⟩ := set_spec h ids n x
      by_cases hpn : ∃ k c', Provides h ids n k c'
      · obtain ⟨k, c', hk⟩ := hpn
        rcases hset n k c' hk with ⟨h1, h2⟩ | ⟨f, h1, h2, h3⟩
        · rw [s3 k c' hk h1]
          refine ⟨fun _ _ _ => Iff.rfl, ?_⟩
          rw [h2 x, if_neg (by simp)]
        · have hs := s4 k c' f hk h1
          have hsd : (setDoubleAttr h ids n x).1 = setData h k (f x (h k).data).1 := by rw [hs]; rfl
          refine ⟨?_, ?_⟩
          · intro n' j b
            unfold Provides
            rw [hsd, owners_setData, attrs_setData]
          · rw [hsd]
            by_cases hn : n = name
            · subst hn
              have e1 : [k] = [i] := by rw [← hk.1, hp.1]
              have hik : k = i := by simpa using e1
              subst hik
              have e2 : c' = a := by have := hk.2.symm.trans hp.2; simpa using this
              subst e2
              unfold setData
              rw [if_pos rfl]
              rcases ha : accepts n x with _ | _
              · rw [(h3 x _).2 ha, if_neg (by simp)]
              · have := h2 f h1 x (h k).data (by rw [(h3 x _).1, ha]; rfl)
                rw [this, if_pos (by simp)]
            · rw [if_neg (by tauto)]
              unfold setData
              by_cases hj : i = k
              · subst hj
                rw [if_pos rfl]
                rcases hind n name i i c' a hk hp hn with hh | hh
                · exact absurd rfl hh
                · exact hh f h1 x _
              · rw [if_neg hj]
      · have hne : (setDoubleAttr h ids n x).1 = h := by
          unfold setDoubleAttr
          rcases hc : check h ids n with _ | e'
          · obtain ⟨k, hk⟩ := (check_eq h ids n).2.2.1 hc
            have hm : k ∈ owners h ids n := by rw [hk]; simp
            obtain ⟨b, hb⟩ := Option.isSome_iff_exists.1 (List.mem_filter.1 hm).2
            exact absurd ⟨k, b, hk, hb⟩ hpn
          · rfl
        rw [hne]
        refine ⟨fun _ _ _ => Iff.rfl, ?_⟩
        rw [if_neg]
        rintro ⟨rfl, -⟩
        exact hpn ⟨i, a, hp⟩
    have := ih (setDoubleAttr h ids n x).1
      (fun n' j b hb => hset n' j b ((key.1 n' j b).1 hb))
      (fun n1 n2 j k b b' hb hb' => hind n1 n2 j k b b' ((key.1 _ _ _).1 hb) ((key.1 _ _ _).1 hb'))
      ((key.1 name i a).2 hp)
    rw [this, key.2]

/-! ### The library's calculators never have an ambiguous name -/

theorem envelope_names_disjoint {e e' : Envelope} (h : e ≠ e') : List.Disjoint e.names e'.names := by
  cases e <;> cases e' <;> simp_all [Envelope.names, List.Disjoint]

theorem envelopes_nodup (es : List Envelope) (h : es.Nodup) : (es.flatMap Envelope.names).Nodup := by
  rw [List.nodup_flatMap]
  refine ⟨fun e _ => by cases e <;> simp [Envelope.names], ?_⟩
  exact h.imp fun hne => envelope_names_disjoint hne

theorem envelope_name_mem (es : List Envelope) (n : String) (h : n ∈ es.flatMap Envelope.names) :
    n ∈ ["qdamp", "scale", "spdiameter", "stepcut"] := by
  obtain ⟨e, -, he⟩ := List.mem_flatMap.1 h
  cases e <;> simp_all [Envelope.names]

/-- C21. No attribute name of a `PDFCalculator` or `DebyePDFCalculator` is ambiguous, whichever of
the library's peak width models, profiles, baselines and set of envelopes it holds. -/
theorem calculator_names_unique (w : Width) (b : Baseline) (es : List Envelope) (h : es.Nodup) :
    (pdfAccept w b es).Nodup ∧ (debyeAccept w es).Nodup := by
  have he := envelopes_nodup es h
  have hm := envelope_name_mem es
  constructor
  · unfold pdfAccept
    rw [List.nodup_append, List.nodup_append]
    refine ⟨⟨?_, he, ?_⟩, by decide, ?_⟩
    · cases w <;> cases b <;> decide
    · have hd : ∀ x ∈ w.names ++ ["peakprecision"] ++ b.names,
          ∀ y ∈ ["qdamp", "scale", "spdiameter", "stepcut"], x ≠ y := by
        cases w <;> cases b <;> decide
      intro x hx y hy
      exact hd x hx y (hm y hy)
    · have hd : ∀ x ∈ w.names ++ ["peakprecision"] ++ b.names ++ ["qdamp", "scale", "spdiameter", "stepcut"],
          ∀ y ∈ pdfNames, x ≠ y := by
        cases w <;> cases b <;> decide
      intro x hx y hy
      refine hd x ?_ y hy
      rcases List.mem_append.1 hx with hx | hx
      · exact List.mem_append_left _ hx
      · exact List.mem_append_right _ (hm x hx)
  · unfold debyeAccept
    rw [List.nodup_append, List.nodup_append]
    refine ⟨⟨?_, he, ?_⟩, by decide, ?_⟩
    · cases w <;> decide
    · have hd : ∀ x ∈ w.names, ∀ y ∈ ["qdamp", "scale", "spdiameter", "stepcut"], x ≠ y := by
        cases w <;> decide
      intro x hx y hy
      exact hd x hx y (hm y hy)
    · have hd : ∀ x ∈ w.names ++ ["qdamp", "scale", "spdiameter", "stepcut"],
          ∀ y ∈ pdfNames ++ ["debyeprecision"], x ≠ y := by
        cases w <;> decide
      intro x hx y hy
      refine hd x ?_ y hy
      rcases List.mem_append.1 hx with hx | hx
      · exact List.mem_append_left _ hx
      · exact List.mem_append_right _ (hm x hx)

/-! ### A concrete tree -/

/-- A calculator with `rmax` (rejects negatives) and read-only `extendedrmax`, holding a peak width
model with `width`. -/
def exHeap : Heap Int Int := fun i =>
  if i = 0 then ⟨[("rmax", ⟨id, some fun x d => if x < 0 then (d, true) else (x, false)⟩),
    ("extendedrmax", ⟨fun d => d + 1, none⟩)], 10⟩
  else ⟨[("width", ⟨id, some fun x _ => (x, false)⟩)], 3⟩

/-- The hypotheses of the theorems above are met: set, get, rejection, read-only, unknown and
duplicate names. -/
example :
    (∃ a, Provides exHeap [1, 0] "rmax" 0 a) ∧ (∃ a, Provides exHeap [1, 0] "width" 1 a) ∧
    (setDoubleAttr exHeap [1, 0] "rmax" 5).2 = none ∧
    ((setDoubleAttr exHeap [1, 0] "rmax" 5).1 0).data = 5 ∧
    (setDoubleAttr exHeap [1, 0] "rmax" (-5)).2 = some .setter ∧
    (setDoubleAttr exHeap [1, 0] "extendedrmax" 5).2 = some .readonly ∧
    (setDoubleAttr exHeap [1, 0] "qmax" 5).2 = some .unknown ∧
    (setDoubleAttr exHeap [1, 0, 1] "width" 5).2 = some .duplicate :=
  ⟨⟨_, by decide, rfl⟩, ⟨_, by decide, rfl⟩, by decide, by decide, by decide, by decide, by decide, by decide⟩

/-- The read-only `extendedrmax` is a view of `rmax`, so the two are not independent; `width` lives
in another object. -/
example : ¬ Independent (⟨id, some fun x d => if x < 0 then (d, true) else (x, false)⟩ : Attr Int Int)
    ⟨fun d => d + 1, none⟩ := by
  intro h
  have := h _ rfl 5 0
  simp at this

/-- The hypotheses of `attr_map` are met by a two-object tree with a validated `rmax`. -/
def exHeap2 : Heap Int Int := fun i =>
  if i = 0 then ⟨[("rmax", ⟨id, some fun x d => if x < 0 then (d, true) else (x, false)⟩)], 10⟩
  else ⟨[("width", ⟨id, some fun x _ => (x, false)⟩)], 3⟩

theorem exHeap2_cases {n : String} {i : Nat} {a : Attr Int Int} (h : Provides exHeap2 [1, 0] n i a) :
    (n = "rmax" ∧ i = 0 ∧ a = ⟨id, some fun x d => if x < 0 then (d, true) else (x, false)⟩) ∨
    (n = "width" ∧ i = 1 ∧ a = ⟨id, some fun x _ => (x, false)⟩) := by
  obtain ⟨h1, h2⟩ := h
  have hi : i ∈ owners exHeap2 [1, 0] n := by rw [h1]; simp
  have := (List.mem_filter.1 hi).1
  simp only [List.mem_cons, List.not_mem_nil, or_false] at this
  rcases this with rfl | rfl
  · right
    simp only [exHeap2, Nat.one_ne_zero, if_false, find_cons, find_nil] at h2
    split at h2
    · rename_i hn; exact ⟨hn.symm, rfl, by simpa using h2.symm⟩
    · cases h2
  · left
    simp only [exHeap2, if_true, find_cons, find_nil] at h2
    split at h2
    · rename_i hn; exact ⟨hn.symm, rfl, by simpa using h2.symm⟩
    · cases h2

example : getDoubleAttr (runSets exHeap2 [1, 0] [("rmax", 7), ("width", 2), ("rmax", -1), ("foo", 3)]) [1, 0] "rmax"
    = .ok (some 7) := by
  rw [attr_map exHeap2 [1, 0] _ (fun n x => n = "width" ∨ (n = "rmax" ∧ 0 ≤ x)) (fun _ x => x) ?_ ?_ "rmax" 0
    ⟨id, some fun x d => if x < 0 then (d, true) else (x, false)⟩ ⟨by decide, rfl⟩]
  · rfl
  · intro n i a h
    right
    rcases exHeap2_cases h with ⟨rfl, rfl, rfl⟩ | ⟨rfl, rfl, rfl⟩
    · refine ⟨_, rfl, ?_, ?_⟩
      · intro f hf x d hx
        cases hf
        by_cases h0 : x < 0
        · simp [h0] at hx
        · simp [h0]
      · intro x d
        by_cases h0 : x < 0 <;> simp [h0] <;> omega
    · refine ⟨_, rfl, ?_, ?_⟩
      · intro f hf x d hx; cases hf; rfl
      · intro x d; simp
  · intro n n' i j a b h h' hn
    left
    rcases exHeap2_cases h with ⟨rfl, rfl, rfl⟩ | ⟨rfl, rfl, rfl⟩ <;>
    rcases exHeap2_cases h' with ⟨rfl, rfl, rfl⟩ | ⟨rfl, rfl, rfl⟩ <;> simp_all

end Verif.Attr
