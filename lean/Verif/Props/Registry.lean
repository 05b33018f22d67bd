import Verif.Model.Registry
import Mathlib.Data.List.Nodup
import Mathlib.Tactic.Tauto
/-! C22: the class registry is a map from names and aliases to types. -/
namespace Verif.Registry
open Verif.AssocMap

/-! ### Specification: an abstract map from names to class types -/

/-- C22 (specification). Abstract registry: the class type behind each name. -/
abbrev Spec := String → Option String

/-- C22 (specification). Effect of a call on the abstract registry. -/
noncomputable def Spec.step (m : Spec) : Op → Spec
  | .register t => if m t = none then fun n => if n = t then some t else m n else m
  | .mkAlias tp al =>
    if m tp ≠ none ∧ (m al = none ∨ m al = m tp) then fun n => if n = al then m tp else m n else m
  | .deregister tp => fun n => if m n = m tp then none else m n

/-- C22 (specification). Abstract registry after a sequence of calls. -/
noncomputable def Spec.run (ops : List Op) : Spec := ops.foldl Spec.step fun _ => none

/-! ### Invariant -/

/-- Every prototype is registered under its own type and identities are unique per type. -/
structure Inv (r : Reg) : Prop where
  nodup : (keys r.reg).Nodup
  own : ∀ n p, find r.reg n = some p → find r.reg p.type = some p
  fresh : ∀ n p, find r.reg n = some p → p.id < r.next
  same : ∀ n p n' p', find r.reg n = some p → find r.reg n' = some p' → p.id = p'.id → p = p'

theorem find_filter_val {κ β : Type} [DecidableEq κ] (m : List (κ × β)) (hn : (keys m).Nodup)
    (q : β → Bool) (k : κ) :
    find (m.filter fun e => q e.2) k = (find m k).bind fun v => if q v then some v else none := by
  have hn' : (keys (m.filter fun e => q e.2)).Nodup := hn.sublist ((List.filter_sublist).map _)
  cases h : find m k with
  | none =>
    rw [Option.bind_none]
    rw [find_eq_none_iff] at h ⊢
    intro hk
    exact h (((List.filter_sublist).map _).subset hk)
  | some v =>
    rw [Option.bind_some]
    by_cases hq : q v
    · rw [if_pos hq, find_eq_some_iff hn']
      exact List.mem_filter.2 ⟨mem_of_find h, hq⟩
    · rw [if_neg hq, find_eq_none_iff]
      intro hk
      obtain ⟨⟨k', v'⟩, he, hkk⟩ := List.mem_map.1 hk
      obtain ⟨e1, e2⟩ := List.mem_filter.1 he
      simp only at hkk
      subst hkk
      have := (find_eq_some_iff hn).2 e1
      rw [h] at this
      cases this
      exact hq e2

theorem inv_empty : Inv ⟨[], 0⟩ :=
  ⟨by simp [keys], by simp, by simp, by simp⟩

theorem inv_step (r : Reg) (o : Op) (h : Inv r) : Inv (step r o).1 := by
  cases o with
  | register t =>
    unfold step registerThisType
    simp only
    split
    · exact h
    · rename_i hn
      have hn : find r.reg t = none := by simpa using hn
      refine ⟨nodup_put _ _ h.nodup, ?_, ?_, ?_⟩
      · intro n p hp
        rw [find_put] at hp ⊢
        split at hp
        · cases hp; simp
        · have ho := h.own n p hp
          by_cases ht : p.type = t
          · rw [ht, hn] at ho; cases ho
          · rw [if_neg ht]; exact ho
      · intro n p hp
        rw [find_put] at hp
        split at hp
        · cases hp; simp
        · have := h.fresh n p hp; simp only; omega
      · intro n p n' p' hp hp' hid
        rw [find_put] at hp hp'
        split at hp
        · split at hp'
          · cases hp; cases hp'; rfl
          · cases hp
            have := h.fresh n' p' hp'
            simp only at hid; omega
        · split at hp'
          · cases hp'
            have := h.fresh n p hp
            simp only at hid; omega
          · exact h.same n p n' p' hp hp' hid
  | mkAlias tp al =>
    unfold step aliasType
    simp only
    cases hp : find r.reg tp with
    | none => simp only; exact h
    | some p =>
      have key : Inv { r with reg := put r.reg al p } ∨ ∃ q, find r.reg al = some q ∧ q.id ≠ p.id := by
        by_cases hq : ∃ q, find r.reg al = some q ∧ q.id ≠ p.id
        · right; exact hq
        · left
          have hval : ∀ n q, find (put r.reg al p) n = some q →
              (∃ n', find r.reg n' = some q) := by
            intro n q hq
            rw [find_put] at hq
            split at hq
            · cases hq; exact ⟨tp, hp⟩
            · exact ⟨n, hq⟩
          refine ⟨nodup_put _ _ h.nodup, ?_, ?_, ?_⟩
          · intro n q hq'
            obtain ⟨n', hn'⟩ := hval n q hq'
            have ho := h.own n' q hn'
            rw [find_put]
            split
            · rename_i hal
              rw [hal] at ho
              have : ¬ q.id ≠ p.id := fun hne => hq ⟨q, ho, hne⟩
              rw [h.same al q tp p ho hp (not_not.1 this)]
            · exact ho
          · intro n q hq'
            obtain ⟨n', hn'⟩ := hval n q hq'
            exact h.fresh n' q hn'
          · intro n q n1 q1 hq' hq1 hid
            obtain ⟨n', hn'⟩ := hval n q hq'
            obtain ⟨n1', hn1'⟩ := hval n1 q1 hq1
            exact h.same n' q n1' q1 hn' hn1' hid
      cases ha : find r.reg al with
      | none =>
        simp only
        rcases key with k | ⟨q, hq, -⟩
        · exact k
        · rw [ha] at hq; cases hq
      | some q =>
        simp only
        by_cases hid : q.id ≠ p.id
        · rw [if_pos hid]; exact h
        · rw [if_neg hid]
          rcases key with k | ⟨q', hq, hne⟩
          · exact k
          · rw [ha] at hq; cases hq; exact absurd hne hid
  | deregister tp =>
    unfold step deregisterType
    simp only
    cases hp : find r.reg tp with
    | none => exact h
    | some p =>
      simp only
      have hf : ∀ n, find (r.reg.filter fun e => !decide (e.2.id = p.id)) n =
          (find r.reg n).bind fun v => if (!decide (v.id = p.id)) = true then some v else none := fun n => find_filter_val r.reg h.nodup (fun v => !decide (v.id = p.id)) n
      have hsub : ∀ n q, find (r.reg.filter fun e => !decide (e.2.id = p.id)) n = some q →
          find r.reg n = some q ∧ q.id ≠ p.id := by
        intro n q hq
        rw [hf] at hq
        cases hv : find r.reg n with
        | none => rw [hv] at hq; cases hq
        | some v =>
          rw [hv, Option.bind_some] at hq
          split at hq
          · rename_i hc
            cases hq
            exact ⟨rfl, by simpa using hc⟩
          · cases hq
      refine ⟨h.nodup.sublist ((List.filter_sublist).map _), ?_, ?_, ?_⟩
      · intro n q hq
        obtain ⟨h1, h2⟩ := hsub n q hq
        have ho := h.own n q h1
        simp only
        rw [hf, ho]
        simp [h2]
      · intro n q hq
        exact h.fresh n q (hsub n q hq).1
      · intro n q n' q' hq hq' hid
        exact h.same n q n' q' (hsub n q hq).1 (hsub n' q' hq').1 hid

theorem inv_run (ops : List Op) : Inv (run ops) := by
  unfold run
  have : ∀ r, Inv r → Inv (ops.foldl (fun r o => (step r o).1) r) := by
    induction ops with
    | nil => intro r h; exact h
    | cons o ops ih => intro r h; exact ih _ (inv_step r o h)
  exact this _ inv_empty

theorem type_inj (r : Reg) (h : Inv r) {n n' : String} {p p' : Proto} (h1 : find r.reg n = some p)
    (h2 : find r.reg n' = some p') (ht : p.type = p'.type) : p = p' := by
  have o1 := h.own n p h1
  have o2 := h.own n' p' h2
  rw [ht, o2] at o1
  cases o1; rfl

theorem type_spec (r : Reg) (h : Inv r) (o : Op) (n : String) :
    createByType (step r o).1 n = Spec.step (createByType r) o n := by
  unfold createByType
  cases o with
  | register t =>
    unfold step registerThisType Spec.step
    simp only
    cases hp : find r.reg t with
    | none =>
      simp only [Option.isSome_none, Bool.false_eq_true, if_false, Option.map_none, if_true]
      rw [find_put]
      split <;> rfl
    | some p =>
      simp
  | mkAlias tp al =>
    unfold step aliasType Spec.step
    simp only
    cases hp : find r.reg tp with
    | none => simp
    | some p =>
      simp only [Option.map_some]
      cases ha : find r.reg al with
      | none =>
        rw [if_pos (by simp)]
        simp only
        rw [find_put]
        split <;> rfl
      | some q =>
        simp only [Option.map_some]
        by_cases hid : q.id ≠ p.id
        · rw [if_pos hid, if_neg]
          rintro ⟨-, hh | hh⟩
          · cases hh
          · have := type_inj r h ha hp (by simpa using hh)
            exact hid (by rw [this])
        · rw [if_neg hid]
          have : q = p := h.same al q tp p ha hp (not_not.1 hid)
          subst this
          rw [if_pos (by simp)]
          simp only
          rw [find_put]
          split <;> rfl
  | deregister tp =>
    unfold step deregisterType Spec.step
    simp only
    cases hp : find r.reg tp with
    | none =>
      simp only [Option.map_none]
      cases find r.reg n <;> simp
    | some p =>
      simp only [Option.map_some]
      rw [find_filter_val r.reg h.nodup (fun v => !decide (v.id = p.id)) n]
      cases hn : find r.reg n with
      | none => simp
      | some q =>
        simp only [Option.map_some]
        by_cases hid : q.id = p.id
        · have : q = p := h.same n q tp p hn hp hid
          simp [this]
        · have : q.type ≠ p.type := fun ht => hid (by rw [type_inj r h hn hp ht])
          simp [hid, this]

theorem spec_run (ops : List Op) : createByType (run ops) = Spec.run ops := by
  unfold run Spec.run
  have : ∀ r m, Inv r → createByType r = m →
      createByType (ops.foldl (fun r o => (step r o).1) r) = ops.foldl Spec.step m := by
    induction ops with
    | nil => intro r m _ hm; exact hm
    | cons o ops ih =>
      intro r m h hm
      refine ih _ _ (inv_step r o h) ?_
      funext n
      rw [type_spec r h o n, hm]
  exact this _ _ inv_empty rfl

/-- C22. After any sequence of registry calls the registry behaves as the abstract map:
`createByType` yields an object of the class registered under that name or alias and fails exactly
for unknown names, and `isRegisteredType` tells which. -/
theorem registry_refines (ops : List Op) (n : String) :
    createByType (run ops) n = Spec.run ops n ∧
    (isRegisteredType (run ops) n = true ↔ Spec.run ops n ≠ none) := by
  have := congrFun (spec_run ops) n
  refine ⟨this, ?_⟩
  rw [← this]
  unfold isRegisteredType createByType
  cases find (run ops).reg n <;> simp

/-- C22. Results of the calls: registering succeeds iff the name is free; aliasing succeeds iff the
type is known and the alias is free or already means the same class; a failed call, and repeating a
successful alias, leaves every name as it was. -/
theorem call_results (ops : List Op) :
    (∀ t, (registerThisType (run ops) t).2 = true ↔ Spec.run ops t = none) ∧
    (∀ tp al, (aliasType (run ops) tp al).2 = true ↔
      Spec.run ops tp ≠ none ∧ (Spec.run ops al = none ∨ Spec.run ops al = Spec.run ops tp)) ∧
    (∀ t, (registerThisType (run ops) t).2 = false → (registerThisType (run ops) t).1 = run ops) ∧
    (∀ tp al, (aliasType (run ops) tp al).2 = false → (aliasType (run ops) tp al).1 = run ops) ∧
    (∀ tp al, (aliasType (run ops) tp al).2 = true →
      (aliasType (aliasType (run ops) tp al).1 tp al).2 = true ∧
      ∀ n, createByType (aliasType (aliasType (run ops) tp al).1 tp al).1 n =
        createByType (aliasType (run ops) tp al).1 n) := by
  have hi := inv_run ops
  have hs := spec_run ops
  rw [← hs]
  have hal : ∀ ops tp al, (aliasType (run ops) tp al).2 = true ↔
      createByType (run ops) tp ≠ none ∧
        (createByType (run ops) al = none ∨ createByType (run ops) al = createByType (run ops) tp) := by
    intro ops tp al
    have hi := inv_run ops
    unfold aliasType createByType
    cases hp : find (run ops).reg tp with
    | none => simp
    | some p =>
      simp only [Option.map_some]
      cases ha : find (run ops).reg al with
      | none => simp
      | some q =>
        simp only [Option.map_some]
        by_cases hid : q.id ≠ p.id
        · rw [if_pos hid]
          have : q.type ≠ p.type := fun ht => hid (by rw [type_inj _ hi ha hp ht])
          simp [this]
        · rw [if_neg hid]
          have : q = p := hi.same al q tp p ha hp (not_not.1 hid)
          simp [this]
  refine ⟨?_, hal ops, ?_, ?_, ?_⟩
  · intro t
    unfold registerThisType createByType
    cases find (run ops).reg t <;> simp
  · intro t
    unfold registerThisType
    split <;> simp
  · intro tp al
    unfold aliasType
    cases find (run ops).reg tp with
    | none => simp
    | some p =>
      simp only
      cases find (run ops).reg al with
      | none => simp
      | some q => simp only; split <;> simp
  · intro tp al h1
    have e1 : (aliasType (run ops) tp al).1 = run (ops ++ [.mkAlias tp al]) := by
      unfold run; rw [List.foldl_append]; rfl
    have h2 := (hal ops tp al).1 h1
    have hstep : ∀ n, createByType (run (ops ++ [.mkAlias tp al])) n =
        if n = al then createByType (run ops) tp else createByType (run ops) n := by
      intro n
      rw [← e1]
      have := type_spec (run ops) hi (.mkAlias tp al) n
      unfold Spec.step step at this
      simp only at this
      rw [this, if_pos h2]
    have h3 : (aliasType (run (ops ++ [.mkAlias tp al])) tp al).2 = true := by
      rw [hal, hstep, hstep, if_pos rfl]
      refine ⟨?_, Or.inr ?_⟩
      · split
        · exact h2.1
        · exact h2.1
      · split <;> rfl
    rw [e1]
    refine ⟨h3, ?_⟩
    intro n
    have := type_spec (run (ops ++ [.mkAlias tp al])) (inv_run _) (.mkAlias tp al) n
    unfold Spec.step step at this
    simp only at this
    rw [this, if_pos ((hal _ tp al).1 h3), hstep, hstep]
    by_cases hn : n = al
    · rw [if_pos hn, if_pos hn]; split <;> rfl
    · rw [if_neg hn, if_neg hn]

/-- C22. What the calls return: 1 for success, 0 for an exception, the count for `deregisterType`. -/
theorem step_results (ops : List Op) :
    (∀ t, (step (run ops) (.register t)).2 = 1 ↔ Spec.run ops t = none) ∧
    (∀ tp al, (step (run ops) (.mkAlias tp al)).2 = 1 ↔
      Spec.run ops tp ≠ none ∧ (Spec.run ops al = none ∨ Spec.run ops al = Spec.run ops tp)) ∧
    ∀ tp, (step (run ops) (.deregister tp)).2 = (deregisterType (run ops) tp).2 := by
  obtain ⟨h1, h2, -⟩ := call_results ops
  refine ⟨fun t => ?_, fun tp al => ?_, fun _ => rfl⟩
  · rw [← h1]
    show (if _ then 1 else 0) = 1 ↔ _
    split <;> simp_all
  · rw [← h2]
    show (if _ then 1 else 0) = 1 ↔ _
    split <;> simp_all

/-- C22. `deregisterType` removes every name and alias of the class behind `tp`, no other name, and
returns how many names it removed (0 for an unknown name). -/
theorem deregister_spec (ops : List Op) (tp : String) :
    (∀ n, Spec.run (ops ++ [.deregister tp]) n =
      if Spec.run ops tp ≠ none ∧ Spec.run ops n = Spec.run ops tp then none else Spec.run ops n) ∧
    ∃ names : List String, names.Nodup ∧
      (∀ n, n ∈ names ↔ Spec.run ops tp ≠ none ∧ Spec.run ops n = Spec.run ops tp) ∧
      (deregisterType (run ops) tp).2 = names.length := by
  have hi := inv_run ops
  have hs := spec_run ops
  constructor
  · intro n
    unfold Spec.run
    rw [List.foldl_append]
    change (if Spec.run ops n = Spec.run ops tp then none else Spec.run ops n) = _
    change _ = if Spec.run ops tp ≠ none ∧ Spec.run ops n = Spec.run ops tp then none else Spec.run ops n
    by_cases h1 : Spec.run ops n = Spec.run ops tp
    · by_cases h2 : Spec.run ops tp = none
      · rw [if_pos h1, if_neg (by tauto), h1, h2]
      · rw [if_pos h1, if_pos ⟨h2, h1⟩]
    · rw [if_neg h1, if_neg (by tauto)]
  · rw [← hs]
    unfold deregisterType createByType
    cases hp : find (run ops).reg tp with
    | none => exact ⟨[], List.nodup_nil, by simp, rfl⟩
    | some p =>
      refine ⟨((run ops).reg.filter fun e => decide (e.2.id = p.id)).map (fun e => e.1),
        hi.nodup.sublist ((List.filter_sublist).map (fun e : String × Proto => e.1)), ?_, by simp⟩
      intro n
      simp only [Option.map_some, ne_eq, reduceCtorEq, not_false_eq_true, true_and]
      constructor
      · intro hm
        obtain ⟨⟨n', q⟩, he, rfl⟩ := List.mem_map.1 hm
        obtain ⟨e1, e2⟩ := List.mem_filter.1 he
        have := (find_eq_some_iff hi.nodup).2 e1
        rw [this]
        have : q = p := hi.same n' q tp p this hp (by simpa using e2)
        rw [this]; rfl
      · intro hm
        cases hn : find (run ops).reg n with
        | none => rw [hn] at hm; cases hm
        | some q =>
          rw [hn] at hm
          have := type_inj _ hi hn hp (by simpa using hm)
          subst this
          exact List.mem_map.2 ⟨(n, q), List.mem_filter.2 ⟨mem_of_find hn, by simp⟩, rfl⟩

/-- C22. `getRegisteredTypes` is the set of classes in the abstract map, each reachable under its
own type name, and `getAliasedTypes` lists every other name once with its class. -/
theorem listing_spec (ops : List Op) :
    (∀ t, t ∈ getRegisteredTypes (run ops) ↔ Spec.run ops t = some t) ∧
    (∀ t, (∃ n, Spec.run ops n = some t) ↔ Spec.run ops t = some t) ∧
    (∀ n t, (n, t) ∈ getAliasedTypes (run ops) ↔ Spec.run ops n = some t ∧ n ≠ t) ∧
    ((getAliasedTypes (run ops)).map (·.1)).Nodup := by
  have hi := inv_run ops
  have hs := spec_run ops
  rw [← hs]
  have hown : ∀ n p, find (run ops).reg n = some p → createByType (run ops) p.type = some p.type := by
    intro n p h
    unfold createByType
    rw [hi.own n p h]; rfl
  have h2 : ∀ t, (∃ n, createByType (run ops) n = some t) ↔ createByType (run ops) t = some t := by
    intro t
    refine ⟨?_, fun h => ⟨t, h⟩⟩
    rintro ⟨n, hn⟩
    unfold createByType at hn
    cases hp : find (run ops).reg n with
    | none => rw [hp] at hn; cases hn
    | some p =>
      rw [hp] at hn
      have : p.type = t := by simpa using hn
      rw [← this]; exact hown n p hp
  refine ⟨?_, h2, ?_, ?_⟩
  · intro t
    rw [← h2]
    unfold getRegisteredTypes createByType
    constructor
    · intro hm
      obtain ⟨⟨n, p⟩, he, rfl⟩ := List.mem_map.1 hm
      exact ⟨n, by rw [(find_eq_some_iff hi.nodup).2 he]; rfl⟩
    · rintro ⟨n, hn⟩
      cases hp : find (run ops).reg n with
      | none => rw [hp] at hn; cases hn
      | some p =>
        rw [hp] at hn
        have : p.type = t := by simpa using hn
        exact List.mem_map.2 ⟨(n, p), mem_of_find hp, this⟩
  · intro n t
    unfold getAliasedTypes createByType
    constructor
    · intro hm
      obtain ⟨⟨n', p⟩, he, heq⟩ := List.mem_map.1 hm
      obtain ⟨e1, e2⟩ := List.mem_filter.1 he
      simp only [Prod.mk.injEq] at heq
      obtain ⟨rfl, rfl⟩ := heq
      exact ⟨by rw [(find_eq_some_iff hi.nodup).2 e1]; rfl, by simpa using e2⟩
    · rintro ⟨hn, hne⟩
      cases hp : find (run ops).reg n with
      | none => rw [hp] at hn; cases hn
      | some p =>
        rw [hp] at hn
        have ht : p.type = t := by simpa using hn
        exact List.mem_map.2 ⟨(n, p), List.mem_filter.2 ⟨mem_of_find hp, by simp [ht, hne]⟩, by simp [ht]⟩
  · unfold getAliasedTypes
    rw [List.map_map]
    exact hi.nodup.sublist ((List.filter_sublist).map _)

/-- C22. The statement fails for scattering factor tables: registering a second class for the same
radiation (here `"X"`) fails, but its type stays registered. -/
theorem sft_register_bug :
    let r := (sftRegister ⟨[], 0⟩ "xray" "X").1
    (sftRegister r "myxray" "X").2 = false ∧ createByType r "myxray" = none ∧
    createByType (sftRegister r "myxray" "X").1 "myxray" = some "myxray" := by decide

/-- C22. Registration of a scattering factor table succeeds iff its type is unknown and its radiation
type is unknown or the type itself; then both names give the class and other names are unchanged. -/
theorem sft_register_spec (ops : List Op) (t rad : String) :
    ((sftRegister (run ops) t rad).2 = true ↔
      Spec.run ops t = none ∧ (Spec.run ops rad = none ∨ rad = t)) ∧
    ((sftRegister (run ops) t rad).2 = true → ∀ n, createByType (sftRegister (run ops) t rad).1 n =
      if n = t ∨ n = rad then some t else Spec.run ops n) := by
  have hr := call_results ops
  have hreg := hr.1 t
  unfold sftRegister
  cases h1 : registerThisType (run ops) t with
  | mk r1 ok =>
    rw [h1] at hreg
    cases ok with
    | false =>
      simp only [Bool.false_eq_true, false_iff] at hreg ⊢
      exact ⟨fun h => hreg h.1, fun h => absurd h (by simp)⟩
    | true =>
      have hfree : Spec.run ops t = none := hreg.1 rfl
      have e1 : r1 = run (ops ++ [.register t]) := by
        unfold run; rw [List.foldl_append]
        change r1 = (registerThisType (run ops) t).1
        rw [h1]
      have hs : Spec.run (ops ++ [.register t]) = fun n => if n = t then some t else Spec.run ops n := by
        unfold Spec.run; rw [List.foldl_append]
        change Spec.step (Spec.run ops) (.register t) = _
        unfold Spec.step
        simp only
        rw [if_pos hfree]
        rfl
      have hal := (call_results (ops ++ [.register t])).2.1 t rad
      rw [← e1, hs] at hal
      simp only
      have hiff : (aliasType r1 t rad).2 = true ↔ Spec.run ops t = none ∧ (Spec.run ops rad = none ∨ rad = t) := by
        rw [hal]
        simp only [if_true]
        by_cases hrt : rad = t
        · simp [hrt, hfree]
        · simp only [hrt, if_false, or_false, hfree, true_and, ne_eq, reduceCtorEq, not_false_eq_true]
          constructor
          · rintro (h | h)
            · exact h
            · -- `rad` cannot already mean the class `t`, which is not registered
              have := (listing_spec ops).2.1 t
              have := this.1 ⟨rad, h⟩
              rw [hfree] at this; cases this
          · intro h; exact Or.inl h
      refine ⟨hiff, ?_⟩
      intro hok n
      have ht := type_spec r1 (by rw [e1]; exact inv_run _) (.mkAlias t rad) n
      have hc : createByType r1 = fun n => if n = t then some t else Spec.run ops n := by
        rw [e1, spec_run, hs]
      have hok' := hal.1 hok
      unfold step Spec.step at ht
      simp only at ht
      rw [hc] at ht
      rw [ht]
      rw [if_pos hok']
      simp only [if_true]
      by_cases hn : n = rad
      · rw [if_pos hn, if_pos (Or.inr hn)]
      · by_cases hn' : n = t
        · rw [if_neg hn, if_pos hn', if_pos (Or.inl hn')]
        · rw [if_neg hn, if_neg hn', if_neg (by tauto)]

/-- A concrete history: two classes, one alias; the alias may not be taken by the other class;
deregistering by the alias removes both of its names only. -/
example :
    let r := run [.register "jeong", .register "constant", .mkAlias "jeong" "J", .mkAlias "constant" "J"]
    createByType r "J" = some "jeong" ∧ (aliasType r "constant" "J").2 = false ∧
    (deregisterType r "J").2 = 2 ∧ getAliasedTypes r = [("J", "jeong")] ∧
    createByType (deregisterType r "J").1 "jeong" = none ∧
    createByType (deregisterType r "J").1 "constant" = some "constant" := by decide

end Verif.Registry
