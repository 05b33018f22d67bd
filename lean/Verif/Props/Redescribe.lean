import Verif.Props.SameAtoms
/-! Ways to describe the same atoms: moved and turned, in another order, in another cell of the same lattice, in a multiple cell, or with the
equivalent positions of a crystal written out. -/
set_option linter.unusedSectionVars false
namespace Verif.Geo
open Verif.BondGen Verif.Eval Verif.R3 Verif.Lattice Verif.Periodic
open Verif.PDFCache (shift imageVec Orbit moved equivPos_apart equivPos_ne moved_inj moved_moved moved_zero shift_add mem_orbit tripVec_inj)
open Verif.Crystal (Crys equivPos)

/-- A rigid motion: the rotation (or reflection) `Q` followed by the translation by `τ`. -/
def rigid (Q : M3) (τ : V3) (p : V3) : V3 := V3.add (M3.mulVec Q p) τ

/-- `Q` keeps lengths. -/
def Orthogonal (Q : M3) : Prop := ∀ v, V3.norm (M3.mulVec Q v) = V3.norm v

theorem rigid_iso {Q : M3} (hQ : Orthogonal Q) (τ p q : V3) : V3.distance (rigid Q τ p) (rigid Q τ q) = V3.distance p q := by
  unfold V3.distance
  rw [← hQ (V3.sub p q), PDFCache.mulVec_sub]
  congr 1
  unfold rigid
  ext <;> simp [V3.sub, V3.add]

/-- The sites of a new list belong to the old sites one to one. -/
def OneToOne (σ : ℕ → ℕ) (n n' : ℕ) : Prop := (∀ k < n', σ k < n) ∧ ∀ j < n, ∃! k, k < n' ∧ σ k = j

/-- A cluster moved, turned and reordered. -/
theorem same_cluster (n n' : ℕ) (pos : ℕ → V3) (Q : M3) (hQ : Orthogonal Q) (τ : V3) (σ : ℕ → ℕ) (hσ : OneToOne σ n n') (pos' : ℕ → V3)
    (hpos : ∀ k < n', pos' k = rigid Q τ (pos (σ k))) : SameAtoms (.cluster n pos) (.cluster n' pos') σ (rigid Q τ) where
  iso := rigid_iso hQ τ
  site := hσ.1
  atom := by
    intro k hk p' hp'
    have hp' : p' = pos' k := hp'
    exact ⟨pos (σ k), rfl, by rw [hp', hpos k hk]⟩
  once := by
    intro j hj p hp
    have hp : p = pos j := hp
    subst hp
    obtain ⟨k, ⟨h1, h2⟩, hu⟩ := hσ.2 j hj
    refine ⟨k, ⟨h1, h2, ?_⟩, fun k' hk' => hu k' ⟨hk'.1, hk'.2.1⟩⟩
    show rigid Q τ (pos j) = pos' k
    rw [hpos k h1, h2]

theorem rigid_moved (Q : M3) (τ : V3) (L L' : Lat) (q : V3) (t t' : ℤ × ℤ × ℤ) (h : shift L' t' = M3.mulVec Q (shift L t)) :
    rigid Q τ (moved L q t) = moved L' (rigid Q τ q) t' := by
  unfold rigid moved
  rw [PDFCache.mulVec_add, h]
  ext <;> simp [V3.add] <;> ring

/-- A periodic structure moved and turned with its lattice, given in any cell of the lattice (`e` renumbers the lattice translations), with its atoms moved by lattice
vectors `s` and reordered. -/
theorem same_periodic (n n' : ℕ) (L L' : Lat) (xyz xyz' : ℕ → V3) (Q : M3) (hQ : Orthogonal Q) (τ : V3) (σ : ℕ → ℕ) (hσ : OneToOne σ n n')
    (e : (ℤ × ℤ × ℤ) ≃ (ℤ × ℤ × ℤ)) (hL : ∀ t, shift L' (e t) = M3.mulVec Q (shift L t)) (s : ℕ → ℤ × ℤ × ℤ)
    (hx : ∀ k < n', xyz' k = rigid Q τ (moved L (xyz (σ k)) (s k))) : SameAtoms (.periodic n L xyz) (.periodic n' L' xyz') σ (rigid Q τ) where
  iso := rigid_iso hQ τ
  site := hσ.1
  atom := by
    rintro k hk p' ⟨t', rfl⟩
    refine ⟨moved L (xyz (σ k)) (s k + e.symm t'), ⟨_, rfl⟩, ?_⟩
    rw [← moved_moved, rigid_moved Q τ L L' _ _ t' (by rw [← hL, Equiv.apply_symm_apply]), ← hx k hk]
  once := by
    rintro j hj p ⟨t, rfl⟩
    obtain ⟨k, ⟨h1, h2⟩, hu⟩ := hσ.2 j hj
    refine ⟨k, ⟨h1, h2, e (t - s k), ?_⟩, fun k' hk' => hu k' ⟨hk'.1, hk'.2.1⟩⟩
    rw [hx k h1, h2, ← rigid_moved Q τ L L' _ _ _ (hL _), moved_moved, add_sub_cancel]

/-- The translation by `(u₁, u₂, u₃)` of a cell repeated `(m₁, m₂, m₃)` times. -/
def times (m : ℕ × ℕ × ℕ) (t : ℤ × ℤ × ℤ) : ℤ × ℤ × ℤ := (m.1 * t.1, m.2.1 * t.2.1, m.2.2 * t.2.2)

/-- The copy `u` of the cell. -/
def cellOf (u : ℕ × ℕ × ℕ) : ℤ × ℤ × ℤ := (u.1, u.2.1, u.2.2)

theorem div_mod_unique (m : ℕ) (hm : 0 < m) (t : ℤ) (c : ℕ) (hc : c < m) : (∃ u : ℤ, t = c + m * u) ↔ (c : ℤ) = t % m := by
  have hm' : (0 : ℤ) < m := by exact_mod_cast hm
  constructor
  · rintro ⟨u, rfl⟩
    rw [Int.add_mul_emod_self_left, Int.emod_eq_of_lt (by positivity) (by exact_mod_cast hc)]
  · intro h
    exact ⟨t / m, by rw [h]; exact (Int.emod_add_mul_ediv t m).symm⟩

/-- A multiple cell: `m₁ × m₂ × m₃` copies of the cell, the copy `c k` of atom `σ k` being atom `k`. -/
theorem same_supercell (n n' : ℕ) (L L' : Lat) (hLr : Reachable L) (m : ℕ × ℕ × ℕ) (hm : 0 < m.1 ∧ 0 < m.2.1 ∧ 0 < m.2.2) (hL : ∀ t, shift L' t = shift L (times m t))
    (xyz xyz' : ℕ → V3) (σ : ℕ → ℕ) (c : ℕ → ℕ × ℕ × ℕ) (hσ : ∀ k < n', σ k < n) (hc : ∀ k < n', (c k).1 < m.1 ∧ (c k).2.1 < m.2.1 ∧ (c k).2.2 < m.2.2)
    (hone : ∀ j < n, ∀ u : ℕ × ℕ × ℕ, u.1 < m.1 → u.2.1 < m.2.1 → u.2.2 < m.2.2 → ∃! k, k < n' ∧ σ k = j ∧ c k = u)
    (hx : ∀ k < n', xyz' k = moved L (xyz (σ k)) (cellOf (c k))) :
    SameAtoms (.periodic n L xyz) (.periodic n' L' xyz') σ id where
  iso := fun _ _ => rfl
  site := hσ
  atom := by
    rintro k hk p' ⟨t', rfl⟩
    refine ⟨moved L (xyz (σ k)) ((cellOf (c k)) + times m t'), ⟨_, rfl⟩, ?_⟩
    rw [← moved_moved, ← hx k hk]
    unfold moved
    rw [hL]
    rfl
  once := by
    rintro j hj p ⟨t, rfl⟩
    have key : ∀ k, k < n' → σ k = j → (moved L (xyz j) t ∈ (Geometry.periodic n' L' xyz').atomsOf k ↔
        (((c k).1 : ℤ) = t.1 % m.1 ∧ ((c k).2.1 : ℤ) = t.2.1 % m.2.1 ∧ ((c k).2.2 : ℤ) = t.2.2 % m.2.2)) := by
      intro k hk hj'
      obtain ⟨c1, c2, c3⟩ := hc k hk
      rw [← div_mod_unique m.1 hm.1 _ _ c1, ← div_mod_unique m.2.1 hm.2.1 _ _ c2, ← div_mod_unique m.2.2 hm.2.2 _ _ c3]
      constructor
      · rintro ⟨t', ht'⟩
        have e : moved L' (xyz' k) t' = moved L (xyz j) ((cellOf (c k)) + times m t') := by
          rw [← moved_moved, ← hj', ← hx k hk]
          unfold moved
          rw [hL]
        rw [e] at ht'
        have := moved_inj L hLr _ ht'
        rw [this]
        exact ⟨⟨t'.1, rfl⟩, ⟨t'.2.1, rfl⟩, ⟨t'.2.2, rfl⟩⟩
      · rintro ⟨⟨u1, h1⟩, ⟨u2, h2⟩, u3, h3⟩
        refine ⟨(u1, u2, u3), ?_⟩
        have ht : t = (cellOf (c k)) + times m (u1, u2, u3) := Prod.ext h1 (Prod.ext h2 h3)
        rw [ht, ← moved_moved, ← hj', ← hx k hk]
        unfold moved
        rw [hL]
    have hpos : ∀ m : ℕ, 0 < m → ∀ t : ℤ, ((t % m).toNat : ℤ) = t % m ∧ (t % m).toNat < m := by
      intro m hm t
      have h0 := Int.emod_nonneg t (b := m) (by exact_mod_cast hm.ne')
      have h1 := Int.emod_lt_of_pos t (b := m) (by exact_mod_cast hm)
      refine ⟨Int.toNat_of_nonneg h0, ?_⟩
      omega
    obtain ⟨k, ⟨h1, h2, h3⟩, hu⟩ := hone j hj ((t.1 % m.1).toNat, (t.2.1 % m.2.1).toNat, (t.2.2 % m.2.2).toNat) (hpos _ hm.1 _).2 (hpos _ hm.2.1 _).2 (hpos _ hm.2.2 _).2
    refine ⟨k, ⟨h1, h2, (key k h1 h2).2 ?_⟩, fun k' hk' => hu k' ⟨hk'.1, hk'.2.1, ?_⟩⟩
    · rw [h3]
      exact ⟨(hpos _ hm.1 _).1, (hpos _ hm.2.1 _).1, (hpos _ hm.2.2 _).1⟩
    · obtain ⟨a1, a2, a3⟩ := (key k' hk'.1 hk'.2.1).1 hk'.2.2
      refine Prod.ext ?_ (Prod.ext ?_ ?_)
      · have := (hpos _ hm.1 t.1).1
        show (c k').1 = (t.1 % m.1).toNat
        omega
      · have := (hpos _ hm.2.1 t.2.1).1
        show (c k').2.1 = (t.2.1 % m.2.1).toNat
        omega
      · have := (hpos _ hm.2.2 t.2.2).1
        show (c k').2.2 = (t.2.2 % m.2.2).toNat
        omega

/-- A crystal with its equivalent positions written out as the atoms of a periodic structure with the same lattice. -/
theorem same_expanded (c : Crys) (n' : ℕ) (xyz' : ℕ → V3) (σ : ℕ → ℕ) (hσ : ∀ k < n', σ k < c.atoms.length)
    (hx : ∀ k < n', ∃ q ∈ equivPos c (σ k), ∃ t, xyz' k = moved c.L q t)
    (hone : ∀ j < c.atoms.length, ∀ q ∈ equivPos c j, ∃! k, k < n' ∧ σ k = j ∧ ∃ t, xyz' k = moved c.L q t) :
    SameAtoms (.crystal c) (.periodic n' c.L xyz') σ id where
  iso := fun _ _ => rfl
  site := hσ
  atom := by
    rintro k hk p' ⟨t', rfl⟩
    obtain ⟨q, hq, t, ht⟩ := hx k hk
    refine ⟨_, ⟨q, hq, t + t', rfl⟩, ?_⟩
    rw [ht, moved_moved]
    rfl
  once := by
    rintro j hj p ⟨q, hq, t, rfl⟩
    obtain ⟨k, ⟨h1, h2, s, hs⟩, hu⟩ := hone j hj q hq
    refine ⟨k, ⟨h1, h2, t - s, ?_⟩, ?_⟩
    · rw [hs, moved_moved, add_sub_cancel]
      rfl
    · rintro k' ⟨g1, g2, s', hs'⟩
      refine hu k' ⟨g1, g2, t - s', ?_⟩
      have hs' : moved c.L q t = moved c.L (xyz' k') s' := hs'
      rw [sub_eq_add_neg, ← moved_moved, hs', moved_moved, add_neg_cancel, moved_zero]

/-! ### Number of atoms in the cell -/

theorem count_oneToOne {σ : ℕ → ℕ} {n n' : ℕ} (hσ : OneToOne σ n n') (j : ℕ) (hj : j < n) : ((Finset.range n').filter fun k => σ k = j).card = 1 := by
  obtain ⟨k, ⟨h1, h2⟩, hu⟩ := hσ.2 j hj
  rw [Finset.card_eq_one]
  refine ⟨k, ?_⟩
  ext k'
  rw [Finset.mem_filter, Finset.mem_range, Finset.mem_singleton]
  exact ⟨fun h => hu k' h, fun h => by rw [h]; exact ⟨h1, h2⟩⟩

theorem count_supercell {σ : ℕ → ℕ} {n n' : ℕ} (m : ℕ × ℕ × ℕ) (c : ℕ → ℕ × ℕ × ℕ) (hc : ∀ k < n', (c k).1 < m.1 ∧ (c k).2.1 < m.2.1 ∧ (c k).2.2 < m.2.2)
    (hone : ∀ j < n, ∀ u : ℕ × ℕ × ℕ, u.1 < m.1 → u.2.1 < m.2.1 → u.2.2 < m.2.2 → ∃! k, k < n' ∧ σ k = j ∧ c k = u) (j : ℕ) (hj : j < n) :
    ((Finset.range n').filter fun k => σ k = j).card = m.1 * (m.2.1 * m.2.2) := by
  have : (Finset.range m.1 ×ˢ (Finset.range m.2.1 ×ˢ Finset.range m.2.2)).card = m.1 * (m.2.1 * m.2.2) := by simp
  rw [← this]
  refine Finset.card_bij (fun k _ => c k) ?_ ?_ ?_
  · intro k hk
    have := hc k (Finset.mem_range.1 (Finset.mem_filter.1 hk).1)
    simp only [Finset.mem_product, Finset.mem_range]
    exact this
  · intro a ha b hb hab
    obtain ⟨a1, a2⟩ := Finset.mem_filter.1 ha
    obtain ⟨b1, b2⟩ := Finset.mem_filter.1 hb
    have a1 := Finset.mem_range.1 a1
    have b1 := Finset.mem_range.1 b1
    obtain ⟨h1, h2, h3⟩ := hc b b1
    exact (hone j hj (c b) h1 h2 h3).unique ⟨a1, a2, hab⟩ ⟨b1, b2, rfl⟩
  · intro u hu
    simp only [Finset.mem_product, Finset.mem_range] at hu
    obtain ⟨k, ⟨h1, h2, h3⟩, -⟩ := hone j hj u hu.1 hu.2.1 hu.2.2
    exact ⟨k, Finset.mem_filter.2 ⟨Finset.mem_range.2 h1, h2⟩, h3⟩

theorem count_expanded (c : Crys) (hok : (Geometry.crystal c).Ok) {n' : ℕ} {xyz' : ℕ → V3} {σ : ℕ → ℕ}
    (hx : ∀ k < n', ∃ q ∈ equivPos c (σ k), ∃ t, xyz' k = moved c.L q t)
    (hone : ∀ j < c.atoms.length, ∀ q ∈ equivPos c j, ∃! k, k < n' ∧ σ k = j ∧ ∃ t, xyz' k = moved c.L q t) (j : ℕ) (hj : j < c.atoms.length) :
    ((Finset.range n').filter fun k => σ k = j).card = (equivPos c j).length := by
  classical
  have hap := equivPos_apart c hok.1 j hj
  have hnd : (equivPos c j).Nodup := hap.imp fun {a b} h => by
    have := h 0
    rwa [moved_zero] at this
  have huniq : ∀ p ∈ equivPos c j, ∀ q ∈ equivPos c j, ∀ s t, moved c.L p s = moved c.L q t → p = q := by
    intro p hp q hq s t hst
    by_contra hne
    have hsym : Std.Symm fun p q : V3 => ∀ t, p ≠ moved c.L q t := by
      refine ⟨fun a b hab t hba => hab (-t) ?_⟩
      rw [hba, moved_moved, add_neg_cancel, moved_zero]
    have := List.Pairwise.forall hap hp hq hne (t - s)
    apply this
    rw [sub_eq_add_neg, ← moved_moved, ← hst, moved_moved, add_neg_cancel, moved_zero]
  rw [← List.toFinset_card_of_nodup hnd]
  symm
  refine Finset.card_bij (fun q hq => (hone j hj q (List.mem_toFinset.1 hq)).choose) ?_ ?_ ?_
  · intro q hq
    obtain ⟨⟨h1, h2, -⟩, -⟩ := (hone j hj q (List.mem_toFinset.1 hq)).choose_spec
    exact Finset.mem_filter.2 ⟨Finset.mem_range.2 h1, h2⟩
  · intro p hp q hq hpq
    obtain ⟨⟨-, -, s, hs⟩, -⟩ := (hone j hj p (List.mem_toFinset.1 hp)).choose_spec
    obtain ⟨⟨-, -, t, ht⟩, -⟩ := (hone j hj q (List.mem_toFinset.1 hq)).choose_spec
    have hpq : (hone j hj p (List.mem_toFinset.1 hp)).choose = (hone j hj q (List.mem_toFinset.1 hq)).choose := hpq
    rw [hpq] at hs
    exact huniq p (List.mem_toFinset.1 hp) q (List.mem_toFinset.1 hq) s t (hs.symm.trans ht)
  · intro k hk
    obtain ⟨h1, h2⟩ := Finset.mem_filter.1 hk
    have h1 := Finset.mem_range.1 h1
    obtain ⟨q, hq, t, ht⟩ := hx k h1
    rw [h2] at hq
    refine ⟨q, List.mem_toFinset.2 hq, ?_⟩
    exact ((hone j hj q hq).choose_spec.2 k ⟨h1, h2, t, ht⟩).symm

end Verif.Geo
