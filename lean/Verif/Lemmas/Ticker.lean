import Verif.Model.Ticker
/-! Helper lemmas about the `EventTicker` model. -/
namespace Verif.Ticker

theorem lt_iff (a b : Tick) : lt a b = true ↔ a.1 < b.1 ∨ (a.1 = b.1 ∧ a.2 < b.2) := by
  unfold lt; simp; omega

theorem le_iff (a b : Tick) : le a b = true ↔ a.1 < b.1 ∨ (a.1 = b.1 ∧ a.2 ≤ b.2) := by
  have := lt_iff b a
  unfold le; simp only [Bool.not_eq_true', Bool.eq_false_iff, ne_eq, this]; omega

theorem gt_iff (a b : Tick) : gt a b = true ↔ b.1 < a.1 ∨ (b.1 = a.1 ∧ b.2 < a.2) := lt_iff b a

theorem ge_iff (a b : Tick) : ge a b = true ↔ b.1 < a.1 ∨ (b.1 = a.1 ∧ b.2 ≤ a.2) := le_iff b a

/-- Bounds on the process clock: its second part is never negative. -/
def GoodClock (g : Tick) : Prop := 0 ≤ g.1 ∧ 0 ≤ g.2 ∧ g.1 ≤ longMax ∧ g.2 ≤ longMax

/-- Under `wrap` the first counter must not be exhausted either. -/
theorem advance_spec {o : Overflow} {g g' : Tick} (hg : GoodClock g)
    (hf : g.1 < longMax) (h : advance o g = some g') : GoodClock g' ∧ lt g g' = true := by
  obtain ⟨g1, g2⟩ := g
  unfold GoodClock at *
  simp only [advance, incr] at h
  rw [lt_iff]
  simp only [longMax, longMin] at *
  by_cases h2 : g2 < 9223372036854775807
  · simp [h2] at h
    by_cases h3 : g2 + 1 ≤ 0
    · omega
    · simp [h3] at h; subst h; simp; omega
  · cases o with
    | trap => simp [h2] at h
    | wrap => simp [h2, hf] at h; subst h; simp; omega

theorem advance_first {o : Overflow} {g g' : Tick} (hg : GoodClock g)
    (h : advance o g = some g') (hf : g.1 < longMax) : g'.1 = g.1 ∨ g'.1 = g.1 + 1 := by
  obtain ⟨g1, g2⟩ := g
  unfold GoodClock at *
  simp only [advance, incr] at h
  simp only [longMax, longMin] at *
  by_cases h2 : g2 < 9223372036854775807
  · simp [h2] at h
    by_cases h3 : g2 + 1 ≤ 0
    · omega
    · simp [h3] at h; subst h; simp
  · cases o with
    | trap => simp [h2] at h
    | wrap => simp [h2, hf] at h; subst h; simp

end Verif.Ticker
