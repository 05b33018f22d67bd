import Verif.Lemmas.Ticker
/-!
# C01, C02 – event tickers

Specification in words: a ticker value is a pair ordered lexicographically; `lt a b` is
"`a` is older than `b`" as reported by the comparison operators of the class.
-/
namespace Verif.Ticker

/-- An archive entry written by a valid process: the ticker is not ahead of the clock that
is saved with it and the clock is not negative. -/
def Op.WF : Op → Prop
  | .load _ m ga => le m ga = true ∧ 0 ≤ ga.1 ∧ 0 ≤ ga.2
  | _ => True

/-- C01 (order): the comparison operators of tickers form a total order. -/
theorem ticker_total_order (a b c : Tick) :
    (le a b = true ∨ le b a = true) ∧
    (le a b = true → le b a = true → a = b) ∧
    (le a b = true → le b c = true → le a c = true) ∧
    (lt a b = true ↔ le b a = false) ∧ gt a b = lt b a ∧ ge a b = le b a := by
  refine ⟨?_, ?_, ?_, ?_, rfl, rfl⟩
  · simp only [le_iff]; omega
  · simp only [le_iff]; intro h1 h2
    have : a.1 = b.1 ∧ a.2 = b.2 := by omega
    exact Prod.ext this.1 this.2
  · simp only [le_iff]; omega
  · rw [Bool.eq_false_iff, ne_eq, le_iff, lt_iff]; omega

/-- C01 (order): `==` is equality of the values, and of any two tickers exactly one is older or they are equal; all six
operators say the same about the order. -/
theorem ticker_trichotomy (a b : Tick) :
    (eq a b = true ↔ a = b) ∧ ne a b = !(eq a b) ∧
    (lt a b = true ∧ eq a b = false ∧ gt a b = false ∨ lt a b = false ∧ eq a b = true ∧ gt a b = false ∨
      lt a b = false ∧ eq a b = false ∧ gt a b = true) ∧
    le a b = (lt a b || eq a b) ∧ ge a b = (gt a b || eq a b) := by
  have he : eq a b = true ↔ a.1 = b.1 ∧ a.2 = b.2 := by simp [eq]
  have hl : lt a b = true ↔ _ := lt_iff a b
  have hg : gt a b = true ↔ _ := lt_iff b a
  have hle := le_iff a b
  have hge : ge a b = true ↔ _ := le_iff b a
  refine ⟨?_, rfl, ?_, ?_, ?_⟩
  · rw [he]; exact ⟨fun h => Prod.ext h.1 h.2, fun h => by rw [h]; exact ⟨rfl, rfl⟩⟩
  · simp only [Bool.eq_false_iff, ne_eq, he, hl, hg]; omega
  · rw [Bool.eq_iff_iff, Bool.or_eq_true, he, hl, hle]; omega
  · rw [Bool.eq_iff_iff, Bool.or_eq_true, he, hg, hge]; omega

example : lt (0, 3) (0, 4) = true ∧ lt (0, 9) (1, 0) = true := by decide

/-- the invariant of all histories -/
private theorem run_inv (o : Overflow) (ops : List Op) : ∀ (w : World) (n : Int),
    (∀ op ∈ ops, op.WF) → w.g.1 = 0 → 0 ≤ w.g.2 → w.g.2 ≤ n → n + ops.length ≤ longMax →
    (∀ t ∈ w.ts, le t w.g = true) →
    ∃ w', run o w ops = some w' ∧ w'.g.1 = 0 ∧ 0 ≤ w'.g.2 ∧ w'.g.2 ≤ n + ops.length ∧
      ∀ t ∈ w'.ts, le t w'.g = true := by
  induction ops with
  | nil => intro w n _ h0 h1 h2 _ h3; exact ⟨w, rfl, h0, h1, by simpa using h2, h3⟩
  | cons op ops ih =>
    intro w n hwf h0 h1 h2 hn h3
    have hwf' : ∀ op ∈ ops, op.WF := fun x hx => hwf x (List.mem_cons_of_mem _ hx)
    have hop : op.WF := hwf op (by simp)
    have key : ∃ w1, step o w op = some w1 ∧ w1.g.1 = 0 ∧ 0 ≤ w1.g.2 ∧ w1.g.2 ≤ n + 1 ∧
        ∀ t ∈ w1.ts, le t w1.g = true := by
      simp only [List.length_cons] at hn
      cases op with
      | new =>
        refine ⟨_, rfl, h0, h1, by simp; omega, ?_⟩
        intro t ht
        simp only [List.mem_append, List.mem_singleton] at ht
        rcases ht with ht | ht
        · exact h3 t ht
        · subst ht; rw [le_iff]; simp; omega
      | click k =>
        have hadv : advance o w.g = some (w.g.1, w.g.2 + 1) := by
          have hlt : w.g.2 < longMax := by omega
          have h3' : ¬ (w.g.2 + 1 ≤ 0) := by omega
          simp [advance, incr, hlt, h3']
        refine ⟨⟨(w.g.1, w.g.2 + 1), w.ts.set k (w.g.1, w.g.2 + 1)⟩, ?_, h0, ?_, ?_, ?_⟩
        · simp [step, hadv]
        · simp; omega
        · simp; omega
        · intro t ht
          rcases List.mem_or_eq_of_mem_set ht with ht | ht
          · have := h3 t ht; rw [le_iff] at this ⊢; simp; omega
          · subst ht; rw [le_iff]; simp
      | update k j =>
        simp only [step]
        split
        · rename_i a b ha hb
          refine ⟨_, rfl, h0, h1, by simp; omega, ?_⟩
          intro t ht
          rcases List.mem_or_eq_of_mem_set ht with ht | ht
          · exact h3 t ht
          · subst ht; unfold updateFrom; split
            · exact h3 b (List.mem_of_getElem? hb)
            · exact h3 a (List.mem_of_getElem? ha)
        · exact ⟨_, rfl, h0, h1, by omega, h3⟩
      | copy k j =>
        simp only [step]
        split
        · rename_i b hb
          refine ⟨_, rfl, h0, h1, by simp; omega, ?_⟩
          intro t ht
          rcases List.mem_or_eq_of_mem_set ht with ht | ht
          · exact h3 t ht
          · subst ht; exact h3 t (List.mem_of_getElem? hb)
        · exact ⟨_, rfl, h0, h1, by omega, h3⟩
      | load k m ga =>
        refine ⟨_, rfl, h0, h1, by simp; omega, ?_⟩
        intro t ht
        rcases List.mem_or_eq_of_mem_set ht with ht | ht
        · exact h3 t ht
        · subst ht
          obtain ⟨hm, -, -⟩ := hop
          rw [le_iff] at hm
          show le (load w.g m ga) w.g = true
          unfold load
          by_cases hgt : gt ga w.g = true
          · simp only [hgt, if_true]
            have hgt' := (gt_iff _ _).1 hgt
            split
            · rw [le_iff]; simp; omega
            · rw [le_iff]; simp; omega
          · simp only [hgt]
            rw [gt_iff] at hgt
            simp only [Bool.false_eq_true, if_false]
            rw [le_iff]; omega
    obtain ⟨w1, e1, a1, a2, a3, a4⟩ := key
    obtain ⟨w2, e2, b1, b2, b3, b4⟩ := ih w1 (n + 1) hwf' a1 a2 a3
      (by simp at hn; omega) a4
    refine ⟨w2, ?_, b1, b2, ?_, b4⟩
    · simp [run, e1, e2]
    · simp; omega

/-- C01: in every history of fewer than 2^63 calls nothing overflows, and no ticker is ever
ahead of the process clock. -/
theorem ticker_never_ahead (o : Overflow) (ops : List Op) (hwf : ∀ op ∈ ops, op.WF)
    (hlen : (ops.length : Int) ≤ longMax) :
    ∃ w, run o World.init ops = some w ∧ ∀ t ∈ w.ts, le t w.g = true := by
  obtain ⟨w, h, -, -, -, h4⟩ := run_inv o ops World.init 0 hwf rfl (by simp [World.init])
    (by simp [World.init]) (by simpa using hlen) (by simp [World.init])
  exact ⟨w, h, h4⟩

example : ∃ ops : List Op, (∀ op ∈ ops, op.WF) ∧ (ops.length : Int) ≤ longMax ∧
    (run .trap World.init ops).map (·.ts) = some [(0, 2), (0, 1)] :=
  ⟨[.new, .new, .click 1, .click 0, .update 1 1], by simp [Op.WF], by decide, by decide⟩

/-- C01: in every history, `click` on any ticker succeeds and makes that ticker strictly newer
than its old value and than every other ticker, without touching the others. -/
theorem ticker_click_newest (o : Overflow) (ops : List Op) (hwf : ∀ op ∈ ops, op.WF)
    (hlen : (ops.length : Int) < longMax) (w : World) (hrun : run o World.init ops = some w)
    (k : Nat) (t : Tick) (hk : w.ts[k]? = some t) :
    ∃ w' t', step o w (.click k) = some w' ∧ w'.ts[k]? = some t' ∧ lt t t' = true ∧
      (∀ j u, j ≠ k → (w'.ts[j]? = some u ↔ w.ts[j]? = some u)) ∧
      (∀ j u, j ≠ k → w'.ts[j]? = some u → lt u t' = true) := by
  obtain ⟨w0, h, h1, h2, h3, h4⟩ := run_inv o ops World.init 0 hwf rfl (by simp [World.init])
    (by simp [World.init]) (by omega) (by simp [World.init])
  rw [hrun] at h; cases h
  have hadv : advance o w.g = some (w.g.1, w.g.2 + 1) := by
    have hlt : w.g.2 < longMax := by omega
    have h3' : ¬ (w.g.2 + 1 ≤ 0) := by omega
    simp [advance, incr, hlt, h3']
  have hklt : k < w.ts.length := by
    rcases List.getElem?_eq_some_iff.1 hk with ⟨hk, -⟩; exact hk
  refine ⟨⟨(w.g.1, w.g.2 + 1), w.ts.set k (w.g.1, w.g.2 + 1)⟩, (w.g.1, w.g.2 + 1),
    by simp [step, hadv], by simp [hklt], ?_, ?_, ?_⟩
  · have := h4 t (List.mem_of_getElem? hk)
    rw [le_iff] at this; rw [lt_iff]; simp; omega
  · intro j u hj; simp [List.getElem?_set_ne (Ne.symm hj)]
  · intro j u hj hu
    simp only [List.getElem?_set_ne (Ne.symm hj)] at hu
    have := h4 u (List.mem_of_getElem? hu)
    rw [le_iff] at this; rw [lt_iff]; simp; omega

example : (run .trap World.init [.new, .new, .click 1]).bind (fun w => step .trap w (.click 0))
    = some ⟨(0, 2), [(0, 2), (0, 1)]⟩ := by decide

/-- C01: `updateFrom` gives the later of the two values: not older than either operand and equal
to one of them. -/
theorem ticker_updateFrom_max (a b : Tick) :
    le a (updateFrom a b) = true ∧ le b (updateFrom a b) = true ∧
    (updateFrom a b = a ∨ updateFrom a b = b) := by
  unfold updateFrom
  by_cases h : gt b a = true
  · rw [if_pos h]; rw [gt_iff] at h
    exact ⟨(le_iff _ _).2 (by omega), (le_iff _ _).2 (by omega), Or.inr rfl⟩
  · rw [if_neg h]; rw [gt_iff] at h
    exact ⟨(le_iff _ _).2 (by omega), (le_iff _ _).2 (by omega), Or.inl rfl⟩

example : updateFrom (0, 3) (1, 0) = (1, 0) ∧ updateFrom (1, 0) (0, 3) = (1, 0) := by decide

/-- C02: a ticker loaded from an archive is never ahead of the process clock. -/
theorem ticker_load_not_ahead (g m ga : Tick) (hg : 0 ≤ g.1 ∧ 0 ≤ g.2) (hm : le m ga = true) :
    le (load g m ga) g = true := by
  rw [le_iff] at hm
  unfold load
  by_cases hgt : gt ga g = true
  · simp only [hgt, if_true]
    have hgt' := (gt_iff _ _).1 hgt
    split
    · rw [le_iff]; simp; omega
    · rw [le_iff]; simp; omega
  · simp only [hgt]
    rw [gt_iff] at hgt
    simp only [Bool.false_eq_true, if_false]
    rw [le_iff]; omega

example : le (0, 3) (0, 5) = true ∧ load (0, 2) (0, 3) (0, 5) = (0, 0) := by decide

/-- C02: two tickers written with the same archived clock keep their order when loaded; the
order is strict-preserving unless the archived clock is a carry ahead, in which case both
become the oldest value. -/
theorem ticker_load_order (g m₁ m₂ ga : Tick) :
    (lt m₁ m₂ = true → le (load g m₁ ga) (load g m₂ ga) = true) ∧
    ((lt (load g m₁ ga) (load g m₂ ga) = lt m₁ m₂) ∨
      (load g m₁ ga = (0, 0) ∧ load g m₂ ga = (0, 0))) := by
  by_cases hgt : gt ga g = true
  · by_cases h1 : ga.1 = g.1
    · have e : ∀ m, load g m ga = (m.1, m.2 + (g.2 - ga.2)) := by intro m; simp [load, hgt, h1]
      rw [e, e]
      refine ⟨?_, Or.inl ?_⟩
      · rw [lt_iff, le_iff]; simp; omega
      · rw [Bool.eq_iff_iff, lt_iff, lt_iff]; simp
    · have e : ∀ m, load g m ga = (0, 0) := by intro m; simp [load, hgt, h1]
      rw [e, e]
      exact ⟨fun _ => by decide, Or.inr ⟨rfl, rfl⟩⟩
  · have e : ∀ m, load g m ga = m := by intro m; simp [load, hgt]
    rw [e, e]
    refine ⟨?_, Or.inl rfl⟩
    rw [lt_iff, le_iff]; omega

example : lt (0, 3) (0, 4) = true ∧ lt (load (0, 2) (0, 3) (0, 5)) (load (0, 2) (0, 4) (0, 5)) = true := by
  decide

/-- C02 limit: with *different* archived clocks (a click between the two saves) loading can
invert the order of two tickers. -/
theorem ticker_load_order_needs_same_clock :
    ∃ g m₁ ga₁ m₂ ga₂ : Tick, le m₁ ga₁ = true ∧ le m₂ ga₂ = true ∧ le ga₁ ga₂ = true ∧
      lt m₁ m₂ = true ∧ lt (load g m₂ ga₂) (load g m₁ ga₁) = true :=
  ⟨(0, 3), (0, 3), (0, 3), (0, 4), (0, 10), by decide⟩

end Verif.Ticker
