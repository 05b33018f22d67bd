import Verif.Model.Crystal
import Verif.Props.Periodic
/-! Lemmas on symmetry expansion. -/
namespace Verif.Crystal
open Verif.R3 Verif.MathUtils Verif.Lattice Verif.Points Verif.BondGen Verif.Periodic Classical

theorem cRound_unique (x : ℝ) (k : ℤ) (h : |x - k| < 1 / 2) : cRound x = k := by
  rw [abs_lt] at h
  unfold cRound
  split
  · rw [Int.floor_eq_iff]; constructor <;> linarith
  · rw [Int.ceil_eq_iff]; constructor <;> linarith

/-- `u` and `v` (fractional) coincide within `eps` up to a lattice translation. -/
def ModClose (L : Lat) (eps : ℝ) (u v : V3) : Prop :=
  ∃ k : ℤ × ℤ × ℤ, V3.distance (L.cartesian u) (V3.add (L.cartesian v) (L.cartesian (tripVec k))) ≤ eps

/-- The precision is below half the distance between lattice planes. -/
def SmallEps (L : Lat) (eps : ℝ) : Prop :=
  eps * V3.norm L.recbase.c0 < 1 / 2 ∧ eps * V3.norm L.recbase.c1 < 1 / 2 ∧
    eps * V3.norm L.recbase.c2 < 1 / 2

theorem abs_dot_le (u v : V3) : |V3.dot u v| ≤ V3.norm u * V3.norm v := by
  rw [abs_le]
  have h1 := V3.cauchy u v
  have h2 := V3.cauchy (V3.smul (-1) u) v
  rw [V3.norm_smul] at h2
  have : V3.dot (V3.smul (-1) u) v = -V3.dot u v := by unfold V3.dot V3.smul; ring
  rw [this] at h2
  constructor
  · norm_num at h2; linarith
  · exact h1

theorem small_components (L : Lat) (h : Reachable L) (eps : ℝ) (hs : SmallEps L eps) (w : V3)
    (hw : V3.norm (L.cartesian w) ≤ eps) : |w.x| < 1 / 2 ∧ |w.y| < 1 / 2 ∧ |w.z| < 1 / 2 := by
  have e := (cartesian_fractional L h w).2
  unfold Lat.fractional M3.vecMul at e
  have ex := congrArg V3.x e
  have ey := congrArg V3.y e
  have ez := congrArg V3.z e
  simp only at ex ey ez
  obtain ⟨s1, s2, s3⟩ := hs
  refine ⟨?_, ?_, ?_⟩
  · rw [← ex]
    refine lt_of_le_of_lt (le_trans (abs_dot_le _ _) ?_) s1
    exact mul_le_mul_of_nonneg_right hw (V3.norm_nonneg _)
  · rw [← ey]
    refine lt_of_le_of_lt (le_trans (abs_dot_le _ _) ?_) s2
    exact mul_le_mul_of_nonneg_right hw (V3.norm_nonneg _)
  · rw [← ez]
    refine lt_of_le_of_lt (le_trans (abs_dot_le _ _) ?_) s3
    exact mul_le_mul_of_nonneg_right hw (V3.norm_nonneg _)

theorem cart_shift (L : Lat) (u v k : V3) :
    V3.sub (L.cartesian u) (V3.add (L.cartesian v) (L.cartesian k)) = L.cartesian (V3.sub (V3.sub u v) k) := by
  unfold Lat.cartesian
  rw [M3.vecMul_sub, M3.vecMul_sub]
  ext <;> simp [V3.sub, V3.add] <;> ring

theorem samePos_modClose (L : Lat) (h : Reachable L) (eps : ℝ) (u v : V3) (hs : samePos L eps u v) :
    ModClose L eps u v := by
  refine ⟨(cRound (V3.sub u v).x, cRound (V3.sub u v).y, cRound (V3.sub u v).z), ?_⟩
  unfold samePos at hs
  rw [norm_cartesian L (good_of_reachable L h)] at hs
  unfold V3.distance
  rw [cart_shift]
  exact hs

theorem samePos_iff (L : Lat) (h : Reachable L) (eps : ℝ) (hsm : SmallEps L eps) (u v : V3) :
    samePos L eps u v ↔ ModClose L eps u v := by
  constructor
  · exact samePos_modClose L h eps u v
  · rintro ⟨k, hk⟩
    unfold V3.distance at hk
    rw [cart_shift] at hk
    obtain ⟨h1, h2, h3⟩ := small_components L h eps hsm _ hk
    have e1 := cRound_unique (V3.sub u v).x k.1 h1
    have e2 := cRound_unique (V3.sub u v).y k.2.1 h2
    have e3 := cRound_unique (V3.sub u v).z k.2.2 h3
    unfold samePos
    rw [norm_cartesian L (good_of_reachable L h)]
    have : wrapDiff (V3.sub u v) = V3.sub (V3.sub u v) (tripVec k) := by
      unfold wrapDiff; rw [e1, e2, e3]; rfl
    rw [this]; exact hk

theorem samePos_refl (L : Lat) (eps : ℝ) (he : 0 ≤ eps) (u : V3) : samePos L eps u u := by
  unfold samePos
  have : wrapDiff (V3.sub u u) = V3.zero := by
    unfold wrapDiff
    have z : (V3.sub u u) = V3.zero := by ext <;> simp [V3.sub, V3.zero]
    rw [z]
    have : cRound 0 = 0 := cRound_unique 0 0 (by norm_num)
    simp [V3.zero, this]
  rw [this]
  unfold Lat.norm Lat.dot V3.zero
  simp [he]

theorem V3.sub_smul_comm' (u v : V3) : V3.sub u v = V3.smul (-1) (V3.sub v u) := by
  ext <;> simp [V3.sub, V3.smul]

theorem modClose_symm (L : Lat) (eps : ℝ) (u v : V3) (h : ModClose L eps u v) : ModClose L eps v u := by
  obtain ⟨k, hk⟩ := h
  refine ⟨(-k.1, -k.2.1, -k.2.2), ?_⟩
  unfold V3.distance at *
  rw [cart_shift] at *
  have e : V3.sub (V3.sub v u) (tripVec (-k.1, -k.2.1, -k.2.2)) = V3.smul (-1) (V3.sub (V3.sub u v) (tripVec k)) := by
    ext <;> simp [V3.sub, V3.smul, tripVec] <;> ring
  rw [e]
  unfold Lat.cartesian at *
  rw [M3.vecMul_smul, V3.norm_smul]
  norm_num
  exact hk

/-! ### The loop -/

/-- Sum of a list of vectors, in order. -/
def vsum (xs : List V3) : V3 := xs.foldl V3.add V3.zero

theorem vsum_append (xs : List V3) (x : V3) : vsum (xs ++ [x]) = V3.add (vsum xs) x := by
  unfold vsum; rw [List.foldl_append]; rfl

/-- What an entry holds. -/
def EntryOK (L : Lat) (eps : ℝ) (a0 : Site) (ops : List SymOp) (e : Acc) : Prop :=
  ∃ g : List SymOp, g ≠ [] ∧ (∀ op ∈ g, op ∈ ops ∧ samePos L eps e.site.xyz (image a0 op)) ∧
    e.cnt = g.length ∧ e.sum = vsum (g.map fun op => ucvFractional (image a0 op))

/-- The site made from an operation. -/
def siteOf (a0 : Site) (op : SymOp) : Site :=
  ⟨image a0 op, M3.mul op.R (M3.mul a0.uij (M3.trans op.R))⟩

structure Inv (L : Lat) (eps : ℝ) (a0 : Site) (ops : List SymOp) (eqs : List Acc) : Prop where
  reps : ∃ reps : List SymOp, reps.Sublist ops ∧ reps.head? = ops.head? ∧ eqs.map Acc.site = reps.map (siteOf a0)
  pw : (eqs.map fun e => e.site.xyz).Pairwise fun u v => ¬ samePos L eps u v
  cov : ∀ op ∈ ops, ∃ e ∈ eqs, samePos L eps e.site.xyz (image a0 op)
  entry : ∀ e ∈ eqs, EntryOK L eps a0 ops e
  tot : (eqs.map Acc.cnt).sum = ops.length

theorem modify_map {α β : Type} (f : α → α) (g : α → β) (hg : ∀ a, g (f a) = g a) (l : List α) (k : Nat) :
    (l.modify k f).map g = l.map g := by
  induction l generalizing k with
  | nil => cases k <;> simp
  | cons a l ih =>
    cases k with
    | zero => simp [hg]
    | succ k => simp [ih]

theorem modify_sum {α : Type} (f : α → α) (g : α → Nat) (hg : ∀ a, g (f a) = g a + 1) (l : List α) (k : Nat)
    (hk : k < l.length) : ((l.modify k f).map g).sum = (l.map g).sum + 1 := by
  induction l generalizing k with
  | nil => simp at hk
  | cons a l ih =>
    cases k with
    | zero => simp [hg]; omega
    | succ k =>
      simp only [List.length_cons] at hk
      have := ih k (by omega)
      simp [this]; omega

theorem mem_modify {α : Type} (f : α → α) (l : List α) (k : Nat) (x : α) (hx : x ∈ l.modify k f) :
    x ∈ l ∨ ∃ a, l[k]? = some a ∧ x = f a := by
  induction l generalizing k with
  | nil => cases k <;> simp at hx
  | cons a l ih =>
    cases k with
    | zero =>
      simp at hx
      rcases hx with rfl | hx
      · exact Or.inr ⟨a, by simp, rfl⟩
      · exact Or.inl (by simp [hx])
    | succ k =>
      simp at hx
      rcases hx with rfl | hx
      · exact Or.inl (by simp)
      · rcases ih k hx with h | ⟨b, hb, rfl⟩
        · exact Or.inl (by simp [h])
        · exact Or.inr ⟨b, by simpa using hb, rfl⟩

theorem EntryOK.mono {L : Lat} {eps : ℝ} {a0 : Site} {ops : List SymOp} {e : Acc}
    (h : EntryOK L eps a0 ops e) (op : SymOp) : EntryOK L eps a0 (ops ++ [op]) e := by
  obtain ⟨g, h1, h2, h3, h4⟩ := h
  exact ⟨g, h1, fun o ho => ⟨by simp [(h2 o ho).1], (h2 o ho).2⟩, h3, h4⟩

theorem V3.zero_add' (v : V3) : V3.add V3.zero v = v := by ext <;> simp [V3.add, V3.zero]

theorem inv_step (L : Lat) (eps : ℝ) (he : 0 ≤ eps) (a0 : Site) (ops : List SymOp) (eqs : List Acc)
    (op : SymOp) (h : Inv L eps a0 ops eqs) : Inv L eps a0 (ops ++ [op]) (expandStep L eps a0 eqs op) := by
  unfold expandStep
  simp only
  cases hf : findEqualPosition L eps eqs (image a0 op) with
  | some k =>
    simp only
    unfold findEqualPosition at hf
    rw [List.findIdx?_eq_some_iff_getElem] at hf
    obtain ⟨hk, hs, _⟩ := hf
    have hs' : samePos L eps eqs[k].site.xyz (image a0 op) := by simpa using hs
    let f : Acc → Acc := fun e => { e with sum := V3.add e.sum (ucvFractional (image a0 op)), cnt := e.cnt + 1 }
    have m1 : (eqs.modify k f).map Acc.site = eqs.map Acc.site := modify_map f _ (fun _ => rfl) _ _
    have m2 : (eqs.modify k f).map (fun e => e.site.xyz) = eqs.map fun e => e.site.xyz :=
      modify_map f _ (fun _ => rfl) _ _
    refine ⟨?_, ?_, ?_, ?_, ?_⟩
    · obtain ⟨reps, hr1, hr0, hr2⟩ := h.reps
      refine ⟨reps, hr1.trans (List.sublist_append_left _ _), ?_, by rw [m1]; exact hr2⟩
      cases ops with
      | nil =>
        rw [List.head?_nil, List.head?_eq_none_iff] at hr0
        subst hr0
        simp only [List.map_nil, List.map_eq_nil_iff] at hr2
        subst hr2
        simp at hk
      | cons o os => simpa using hr0
    · rw [m2]; exact h.pw
    · have tr : ∀ x, (∃ e ∈ eqs, samePos L eps e.site.xyz x) → ∃ e ∈ eqs.modify k f, samePos L eps e.site.xyz x := by
        rintro x ⟨e, he1, he2⟩
        have : e.site.xyz ∈ (eqs.modify k f).map (fun e => e.site.xyz) := by
          rw [m2]; exact List.mem_map.2 ⟨e, he1, rfl⟩
        obtain ⟨e', he', hx⟩ := List.mem_map.1 this
        exact ⟨e', he', by rw [hx]; exact he2⟩
      intro o ho
      apply tr
      rw [List.mem_append, List.mem_singleton] at ho
      rcases ho with ho | rfl
      · exact h.cov o ho
      · exact ⟨eqs[k], List.getElem_mem hk, hs'⟩
    · intro e hmem
      rcases mem_modify f eqs k e hmem with h1 | ⟨e0, h1, rfl⟩
      · exact (h.entry e h1).mono op
      · have h0 : e0 = eqs[k] := by
          rw [List.getElem?_eq_getElem hk] at h1
          simpa using h1.symm
        have hm0 : e0 ∈ eqs := by rw [h0]; exact List.getElem_mem hk
        obtain ⟨g, g1, g2, g3, g4⟩ := h.entry e0 hm0
        refine ⟨g ++ [op], by simp, ?_, ?_, ?_⟩
        · intro o ho
          rw [List.mem_append, List.mem_singleton] at ho
          rcases ho with ho | rfl
          · exact ⟨by simp [(g2 o ho).1], (g2 o ho).2⟩
          · refine ⟨by simp, ?_⟩
            show samePos L eps e0.site.xyz _
            rw [h0]; exact hs'
        · show e0.cnt + 1 = _; rw [g3]; simp
        · show V3.add e0.sum _ = _
          rw [List.map_append, List.map_singleton, vsum_append, g4]
    · rw [show (eqs.modify k fun e => ({ e with sum := V3.add e.sum (ucvFractional (image a0 op)), cnt := e.cnt + 1 } : Acc)) = eqs.modify k f from rfl]
      rw [modify_sum f Acc.cnt (fun _ => rfl) eqs k hk, h.tot]; simp
  | none =>
    simp only
    unfold findEqualPosition at hf
    rw [List.findIdx?_eq_none_iff] at hf
    refine ⟨?_, ?_, ?_, ?_, ?_⟩
    · obtain ⟨reps, hr1, hr0, hr2⟩ := h.reps
      refine ⟨reps ++ [op], hr1.append (List.Sublist.refl _), by rw [List.head?_append, List.head?_append, hr0], ?_⟩
      rw [List.map_append, List.map_append, hr2]; rfl
    · rw [List.map_append, List.pairwise_append]
      refine ⟨h.pw, by simp, ?_⟩
      intro x hx y hy
      simp only [List.map_cons, List.map_nil, List.mem_singleton] at hy
      subst hy
      obtain ⟨e, he1, rfl⟩ := List.mem_map.1 hx
      have := hf e he1
      simpa using this
    · intro o ho
      rw [List.mem_append, List.mem_singleton] at ho
      rcases ho with ho | rfl
      · obtain ⟨e, he1, he2⟩ := h.cov o ho
        exact ⟨e, by simp [he1], he2⟩
      · exact ⟨_, List.mem_append_right _ (List.mem_singleton_self _), samePos_refl L eps he (image a0 o)⟩
    · intro e hmem
      rw [List.mem_append, List.mem_singleton] at hmem
      rcases hmem with h1 | rfl
      · exact (h.entry e h1).mono op
      · refine ⟨[op], by simp, ?_, rfl, ?_⟩
        · intro o ho
          rw [List.mem_singleton] at ho
          subst ho
          exact ⟨by simp, samePos_refl L eps he _⟩
        · rfl
    · simp [h.tot]

theorem inv_loop (L : Lat) (eps : ℝ) (he : 0 ≤ eps) (a0 : Site) (ops : List SymOp) :
    Inv L eps a0 ops (expandLoop L eps ops a0) := by
  have key : ∀ (ops done : List SymOp) (eqs : List Acc), Inv L eps a0 done eqs →
      Inv L eps a0 (done ++ ops) (ops.foldl (expandStep L eps a0) eqs) := by
    intro ops
    induction ops with
    | nil => intro done eqs h; simpa using h
    | cons op ops ih =>
      intro done eqs h
      have := ih (done ++ [op]) _ (inv_step L eps he a0 done eqs op h)
      simpa using this
  have := key ops [] [] ⟨⟨[], by simp, rfl, rfl⟩, by simp, by simp, by simp, rfl⟩
  rw [List.nil_append] at this
  exact this

/-! ### Mean positions -/

theorem vsum_cons (y : V3) (ys : List V3) : vsum (y :: ys) = V3.add y (vsum ys) := by
  have key : ∀ (ys : List V3) (a : V3), ys.foldl V3.add a = V3.add a (vsum ys) := by
    intro ys
    induction ys with
    | nil => intro a; show a = V3.add a V3.zero; ext <;> simp [V3.add, V3.zero]
    | cons y ys ih =>
      intro a
      show ys.foldl V3.add (V3.add a y) = V3.add a (ys.foldl V3.add (V3.add V3.zero y))
      rw [ih, ih]
      ext <;> simp [V3.add, V3.zero] <;> ring
  show ys.foldl V3.add (V3.add V3.zero y) = _
  rw [key, V3.zero_add']

/-- The mean of points of the half-open cell is in the cell. -/
theorem mean_inCell (ys : List V3) (hne : ys ≠ []) (h : ∀ y ∈ ys, InCell y) :
    InCell (V3.smul (1 / (ys.length : ℝ)) (vsum ys)) := by
  have key : ∀ (p : V3 → ℝ), p V3.zero = 0 → (∀ u v, p (V3.add u v) = p u + p v) →
      (∀ y ∈ ys, 0 ≤ p y ∧ p y < 1) → 0 ≤ p (vsum ys) ∧ p (vsum ys) < ys.length := by
    intro p p0 pa hp
    have aux : ∀ ys : List V3, (∀ y ∈ ys, 0 ≤ p y ∧ p y < 1) →
        0 ≤ p (vsum ys) ∧ p (vsum ys) ≤ ys.length ∧ (ys ≠ [] → p (vsum ys) < ys.length) := by
      intro ys
      induction ys with
      | nil => intro _; simp [vsum, p0]
      | cons y ys ih =>
        intro hy
        obtain ⟨i1, i2, _⟩ := ih fun z hz => hy z (by simp [hz])
        obtain ⟨j1, j2⟩ := hy y (by simp)
        rw [vsum_cons, pa]
        push_cast [List.length_cons]
        exact ⟨by linarith, by linarith, fun _ => by linarith⟩
    obtain ⟨a1, _, a3⟩ := aux ys hp
    exact ⟨a1, a3 hne⟩
  have hn : (0 : ℝ) < ys.length := by
    have := List.length_pos_of_ne_nil hne
    exact_mod_cast this
  have fin : ∀ s : ℝ, 0 ≤ s ∧ s < ys.length → 0 ≤ 1 / (ys.length : ℝ) * s ∧ 1 / (ys.length : ℝ) * s < 1 := by
    rintro s ⟨h1, h2⟩
    refine ⟨by positivity, ?_⟩
    rw [one_div, inv_mul_lt_iff₀ hn]; linarith
  exact ⟨fin _ (key V3.x rfl (fun _ _ => rfl) fun y hy => (h y hy).1),
    fin _ (key V3.y rfl (fun _ _ => rfl) fun y hy => (h y hy).2.1),
    fin _ (key V3.z rfl (fun _ _ => rfl) fun y hy => (h y hy).2.2)⟩

/-- The mean of points within `δ` of `y0` is within `δ` of `y0`. -/
theorem mean_close (L : Lat) (ys : List V3) (hne : ys ≠ []) (y0 : V3) (δ : ℝ)
    (h : ∀ y ∈ ys, V3.norm (L.cartesian (V3.sub y y0)) ≤ δ) :
    V3.norm (L.cartesian (V3.sub (V3.smul (1 / (ys.length : ℝ)) (vsum ys)) y0)) ≤ δ := by
  have aux : ∀ ys : List V3, (∀ y ∈ ys, V3.norm (L.cartesian (V3.sub y y0)) ≤ δ) →
      V3.norm (L.cartesian (V3.sub (vsum ys) (V3.smul (ys.length : ℝ) y0))) ≤ ys.length * δ := by
    intro ys
    induction ys with
    | nil =>
      intro _
      have : V3.sub (vsum []) (V3.smul (([] : List V3).length : ℝ) y0) = V3.zero := by
        ext <;> simp [V3.sub, vsum, V3.zero, V3.smul]
      rw [this]
      simp [Lat.cartesian, M3.vecMul, V3.dot, V3.zero, V3.norm]
    | cons y ys ih =>
      intro hy
      have i1 := ih fun z hz => hy z (by simp [hz])
      have i2 := hy y (by simp)
      have e : V3.sub (vsum (y :: ys)) (V3.smul ((y :: ys).length : ℝ) y0)
          = V3.add (V3.sub y y0) (V3.sub (vsum ys) (V3.smul (ys.length : ℝ) y0)) := by
        rw [vsum_cons]; ext <;> simp [V3.sub, V3.add, V3.smul] <;> ring
      rw [e]
      unfold Lat.cartesian at *
      rw [M3.vecMul_add]
      refine le_trans (V3.norm_add_le _ _) ?_
      push_cast [List.length_cons]
      linarith
  have hn : (0 : ℝ) < ys.length := by
    have := List.length_pos_of_ne_nil hne
    exact_mod_cast this
  have e : V3.sub (V3.smul (1 / (ys.length : ℝ)) (vsum ys)) y0
      = V3.smul (1 / (ys.length : ℝ)) (V3.sub (vsum ys) (V3.smul (ys.length : ℝ) y0)) := by
    ext <;> simp [V3.sub, V3.smul] <;> field_simp
  rw [e]
  have := aux ys h
  unfold Lat.cartesian at *
  rw [M3.vecMul_smul, V3.norm_smul, abs_of_pos (by positivity), one_div, inv_mul_le_iff₀ hn]
  exact this

end Verif.Crystal
