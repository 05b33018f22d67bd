import Verif.Model.BondGen
import Verif.Lemmas.R3
/-! Lemmas on the bond-generator machines. -/
namespace Verif.BondGen
open Verif.R3 Classical

theorem Machine.states_fin {σ : Type} (M : Machine σ) (s : σ) (h : M.fin s = true) :
    M.states s = [] := by rw [Machine.states, dif_pos h]

theorem Machine.states_step {σ : Type} (M : Machine σ) (s : σ) (h : M.fin s = false) :
    M.states s = s :: M.states (M.step s) := by
  rw [Machine.states, dif_neg (by simp [h])]

theorem Machine.collect_states {σ β : Type} (M : Machine σ) (out : σ → β) (s : σ) :
    M.collect out (M.advance s) = ((M.states s).filter fun t => decide (¬ M.bad t)).map out := by
  induction h : M.μ s using Nat.strong_induction_on generalizing s with
  | _ n ih =>
    subst h
    by_cases hf : M.fin s = true
    · rw [M.states_fin s hf, Machine.advance, dif_pos hf, Machine.collect, dif_pos hf]; rfl
    · have hf' : M.fin s = false := by simpa using hf
      have hd := M.dec s hf'
      rw [M.states_step s hf', Machine.advance, dif_neg hf]
      by_cases hb : M.bad s
      · rw [if_pos hb, ih _ hd _ rfl]
        simp [hb]
      · rw [if_neg hb, Machine.collect, dif_neg hf, ih _ hd _ rfl]
        simp [hb]

/-! ### Specification of a visited bond -/

/-- A distance the generator has to report: in the range and larger than the zero tolerance. -/
def GoodDist (c : Cfg) (d : ℝ) : Prop := c.rmin ≤ d ∧ d ≤ c.rmax ∧ sqrtEps < d

/-- The bond from the anchor to site `i` placed at `r1`, if it is in range. -/
noncomputable def specBond (c : Cfg) (i : Nat) (r1 : V3) : List Bond :=
  if GoodDist c (V3.distance r1 c.r0) then [⟨i, r1, V3.sub r1 c.r0, V3.distance r1 c.r0⟩] else []

theorem badBond_iff (c : Cfg) (d : ℝ) (hd : 0 ≤ d) : ¬ badBond c d ↔ GoodDist c d := by
  unfold badBond GoodDist epsEq
  rw [sub_zero, abs_of_nonneg hd]
  push Not
  constructor
  · rintro ⟨⟨h1, h2⟩, h3⟩; exact ⟨h1, h2, h3⟩
  · rintro ⟨h1, h2, h3⟩; exact ⟨⟨h1, h2⟩, h3⟩

theorem updateDistance_spec (c : Cfg) (old : Cur) (r1 : V3) :
    let u := updateDistance c.r0 c.rmax old r1
    (¬ badBond c u.dist ↔ GoodDist c (V3.distance r1 c.r0)) ∧
    (GoodDist c (V3.distance r1 c.r0) → u = ⟨r1, V3.sub r1 c.r0, V3.distance r1 c.r0⟩) := by
  intro u
  have hx := V3.abs_x_le (V3.sub r1 c.r0)
  have hy := V3.abs_y_le (V3.sub r1 c.r0)
  have hz := V3.abs_z_le (V3.sub r1 c.r0)
  simp only [u, updateDistance]
  unfold V3.distance
  by_cases h1 : |r1.x - c.r0.x| > c.rmax
  · have hn : c.rmax < V3.norm (V3.sub r1 c.r0) := lt_of_lt_of_le h1 hx
    have hng : ¬ GoodDist c (V3.norm (V3.sub r1 c.r0)) := fun h => absurd h.2.1 (not_le.2 hn)
    simp only [h1, if_true]
    refine ⟨⟨fun h => absurd (Or.inl (Or.inr h1)) h, fun h => absurd h hng⟩, fun h => absurd h hng⟩
  · by_cases h2 : |r1.y - c.r0.y| > c.rmax
    · have hn : c.rmax < V3.norm (V3.sub r1 c.r0) := lt_of_lt_of_le h2 hy
      have hng : ¬ GoodDist c (V3.norm (V3.sub r1 c.r0)) := fun h => absurd h.2.1 (not_le.2 hn)
      simp only [h1, h2, if_true, if_false]
      refine ⟨⟨fun h => absurd (Or.inl (Or.inr h2)) h, fun h => absurd h hng⟩, fun h => absurd h hng⟩
    · by_cases h3 : |r1.z - c.r0.z| > c.rmax
      · have hn : c.rmax < V3.norm (V3.sub r1 c.r0) := lt_of_lt_of_le h3 hz
        have hng : ¬ GoodDist c (V3.norm (V3.sub r1 c.r0)) := fun h => absurd h.2.1 (not_le.2 hn)
        simp only [h1, h2, h3, if_true, if_false]
        refine ⟨⟨fun h => absurd (Or.inl (Or.inr h3)) h, fun h => absurd h hng⟩, fun h => absurd h hng⟩
      · simp only [h1, h2, h3, if_false]
        exact ⟨badBond_iff c _ (V3.norm_nonneg _), fun _ => rfl⟩

/-- One raw state contributes its specified bond. -/
theorem spec_head (c : Cfg) (old : Cur) (i : Nat) (r1 : V3) :
    (if ¬ badBond c (updateDistance c.r0 c.rmax old r1).dist then
      [(⟨i, (updateDistance c.r0 c.rmax old r1).r1, (updateDistance c.r0 c.rmax old r1).r01,
        (updateDistance c.r0 c.rmax old r1).dist⟩ : Bond)] else []) = specBond c i r1 := by
  obtain ⟨h1, h2⟩ := updateDistance_spec c old r1
  unfold specBond
  by_cases hg : GoodDist c (V3.distance r1 c.r0)
  · rw [if_pos (h1.2 hg), if_pos hg]
    rw [h2 hg]
  · rw [if_neg (fun h => hg (h1.1 h)), if_neg hg]

theorem filter_map_cons {σ β : Type} (p : σ → Prop) (out : σ → β) (s : σ) (l : List σ) :
    ((s :: l).filter fun t => decide (¬ p t)).map out
      = (if ¬ p s then [out s] else []) ++ (l.filter fun t => decide (¬ p t)).map out := by
  by_cases h : p s <;> simp [h]

/-! ### Base -/

theorem base_states (c : Cfg) (pos : Nat → V3) (rest : List Nat) (hne : rest ≠ []) (old : Cur) :
    (((baseMachine c pos).states (baseRewindSymmetry c pos ⟨rest, old⟩)).filter
      fun t => decide (¬ (baseMachine c pos).bad t)).map BSt.out
      = rest.flatMap fun i => specBond c i (pos i) := by
  induction rest generalizing old with
  | nil => exact absurd rfl hne
  | cons i is ih =>
    have hfin : (baseMachine c pos).fin (baseRewindSymmetry c pos ⟨i :: is, old⟩) = false := by
      simp [baseMachine, baseRewind_rest]
    rw [Machine.states_step _ _ hfin, filter_map_cons, List.flatMap_cons]
    congr 1
    · exact spec_head c old i (pos i)
    · cases is with
      | nil =>
        rw [Machine.states_fin]
        · rfl
        · simp [baseMachine, baseNext, baseRewind_rest]
      | cons j js =>
        have : (baseMachine c pos).step (baseRewindSymmetry c pos ⟨i :: j :: js, old⟩)
            = baseRewindSymmetry c pos ⟨j :: js, updateDistance c.r0 c.rmax old (pos i)⟩ := by
          simp [baseMachine, baseNext, baseRewindSymmetry]
        rw [this]
        exact ih (by simp) _

/-! ### Periodic -/

theorem per_states (c : Cfg) (pos : Nat → V3) (sel : List Nat) (hsel : sel ≠ []) (ps : List V3)
    (rest : List Nat) (hne : rest ≠ []) (rc : V3) (p0 : V3) (old : Cur) :
    (((perMachine c pos sel).states (perUpdater1 c pos ⟨rest, p0 :: ps, rc, old⟩)).filter
      fun t => decide (¬ (perMachine c pos sel).bad t)).map PSt.out
      = (rest.flatMap fun i => specBond c i (V3.add rc (pos i)))
        ++ ps.flatMap fun p => sel.flatMap fun i => specBond c i (V3.add p (pos i)) := by
  induction ps generalizing rest rc p0 old with
  | nil =>
    induction rest generalizing old with
    | nil => exact absurd rfl hne
    | cons i is ih =>
      have hfin : (perMachine c pos sel).fin (perUpdater1 c pos ⟨i :: is, [p0], rc, old⟩) = false := by
        simp [perMachine, perUpdater1_shape]
      rw [Machine.states_step _ _ hfin, filter_map_cons, List.flatMap_cons, List.append_assoc]
      congr 1
      · exact spec_head c old i (V3.add rc (pos i))
      · cases is with
        | nil =>
          rw [Machine.states_fin]
          · rfl
          · simp [perMachine, perNext, perUpdater1_shape]
        | cons j js =>
          have : (perMachine c pos sel).step (perUpdater1 c pos ⟨i :: j :: js, [p0], rc, old⟩)
              = perUpdater1 c pos ⟨j :: js, [p0], rc, updateDistance c.r0 c.rmax old (V3.add rc (pos i))⟩ := by
            simp [perMachine, perNext, perUpdater1]
          rw [this]
          exact ih (by simp) _
  | cons p ps ihp =>
    induction rest generalizing old with
    | nil => exact absurd rfl hne
    | cons i is ih =>
      have hfin : (perMachine c pos sel).fin (perUpdater1 c pos ⟨i :: is, p0 :: p :: ps, rc, old⟩) = false := by
        simp [perMachine, perUpdater1_shape]
      rw [Machine.states_step _ _ hfin, filter_map_cons, List.flatMap_cons, List.append_assoc]
      congr 1
      · exact spec_head c old i (V3.add rc (pos i))
      · cases is with
        | nil =>
          have : (perMachine c pos sel).step (perUpdater1 c pos ⟨[i], p0 :: p :: ps, rc, old⟩)
              = perUpdater1 c pos ⟨sel, p :: ps, p, updateDistance c.r0 c.rmax old (V3.add rc (pos i))⟩ := by
            simp [perMachine, perNext, perUpdater1, hsel]
          rw [this, ihp sel hsel]
          simp
        | cons j js =>
          have : (perMachine c pos sel).step (perUpdater1 c pos ⟨i :: j :: js, p0 :: p :: ps, rc, old⟩)
              = perUpdater1 c pos ⟨j :: js, p0 :: p :: ps, rc, updateDistance c.r0 c.rmax old (V3.add rc (pos i))⟩ := by
            simp [perMachine, perNext, perUpdater1]
          rw [this]
          exact ih (by simp) _

/-- With no sphere points the tail is empty all the same. -/
theorem per_states_nil (c : Cfg) (pos : Nat → V3) (sel : List Nat)
    (rest : List Nat) (hne : rest ≠ []) (rc : V3) (old : Cur) :
    (((perMachine c pos sel).states (perUpdater1 c pos ⟨rest, [], rc, old⟩)).filter
      fun t => decide (¬ (perMachine c pos sel).bad t)).map PSt.out
      = rest.flatMap fun i => specBond c i (V3.add rc (pos i)) := by
  induction rest generalizing old with
  | nil => exact absurd rfl hne
  | cons i is ih =>
    have hfin : (perMachine c pos sel).fin (perUpdater1 c pos ⟨i :: is, [], rc, old⟩) = false := by
      simp [perMachine, perUpdater1_shape]
    rw [Machine.states_step _ _ hfin, filter_map_cons, List.flatMap_cons]
    congr 1
    · exact spec_head c old i (V3.add rc (pos i))
    · cases is with
      | nil =>
        rw [Machine.states_fin]
        · rfl
        · simp [perMachine, perNext, perUpdater1_shape]
      | cons j js =>
        have : (perMachine c pos sel).step (perUpdater1 c pos ⟨i :: j :: js, [], rc, old⟩)
            = perUpdater1 c pos ⟨j :: js, [], rc, updateDistance c.r0 c.rmax old (V3.add rc (pos i))⟩ := by
          simp [perMachine, perNext, perUpdater1]
        rw [this]
        exact ih (by simp) _

/-! ### Crystal -/

theorem cry_states (c : Cfg) (syms : Nat → List V3) (P : List V3) (rest : List Nat)
    (hsym : ∀ i ∈ rest, syms i ≠ []) (i : Nat) (q : V3) (qs : List V3) (rc : V3) (ps pall : List V3)
    (hp : pall.tail = ps) (old : Cur) :
    (((cryMachine c syms P).states (cryUpdater1 c ⟨i :: rest, q :: qs, pall, rc, old⟩)).filter
      fun t => decide (¬ (cryMachine c syms P).bad t)).map CSt.out
      = ((specBond c i (V3.add rc q) ++ ps.flatMap fun p => specBond c i (V3.add p q))
        ++ qs.flatMap fun q' => (P.headD V3.zero :: P.tail).flatMap fun p => specBond c i (V3.add p q'))
        ++ rest.flatMap fun j => (syms j).flatMap fun q' =>
            (P.headD V3.zero :: P.tail).flatMap fun p => specBond c j (V3.add p q') := by
  induction rest generalizing i q qs rc ps pall old with
  | nil =>
    induction qs generalizing q rc ps pall old with
    | nil =>
      induction ps generalizing rc pall old with
      | nil =>
        have hfin : (cryMachine c syms P).fin (cryUpdater1 c ⟨[i], [q], pall, rc, old⟩) = false := by
          simp [cryMachine, cryUpdater1_shape]
        rw [Machine.states_step _ _ hfin, filter_map_cons, Machine.states_fin]
        · simp only [List.filter_nil, List.map_nil, List.append_nil, List.flatMap_nil]
          exact spec_head c old i (V3.add rc q)
        · simp [cryMachine, cryNext, cryUpdater1_shape, hp]
      | cons p ps ih =>
        have hfin : (cryMachine c syms P).fin (cryUpdater1 c ⟨[i], [q], pall, rc, old⟩) = false := by
          simp [cryMachine, cryUpdater1_shape]
        rw [Machine.states_step _ _ hfin, filter_map_cons]
        have : (cryMachine c syms P).step (cryUpdater1 c ⟨[i], [q], pall, rc, old⟩)
            = cryUpdater1 c ⟨[i], [q], p :: ps, p, updateDistance c.r0 c.rmax old (V3.add rc q)⟩ := by
          simp [cryMachine, cryNext, cryUpdater1, hp]
        rw [this, ih p (p :: ps) rfl]
        simp only [List.flatMap_cons, List.append_assoc]
        congr 1
        exact spec_head c old i (V3.add rc q)
    | cons q' qs ihq =>
      induction ps generalizing rc pall old with
      | nil =>
        have hfin : (cryMachine c syms P).fin (cryUpdater1 c ⟨[i], q :: q' :: qs, pall, rc, old⟩) = false := by
          simp [cryMachine, cryUpdater1_shape]
        rw [Machine.states_step _ _ hfin, filter_map_cons]
        have : (cryMachine c syms P).step (cryUpdater1 c ⟨[i], q :: q' :: qs, pall, rc, old⟩)
            = cryUpdater1 c ⟨[i], q' :: qs, P, P.headD V3.zero, updateDistance c.r0 c.rmax old (V3.add rc q)⟩ := by
          simp [cryMachine, cryNext, cryUpdater1, cryRewindSphere, hp]
        rw [this, ihq q' _ _ P rfl]
        simp only [List.flatMap_cons, List.append_assoc, List.flatMap_nil, List.nil_append]
        congr 1
        exact spec_head c old i (V3.add rc q)
      | cons p ps ih =>
        have hfin : (cryMachine c syms P).fin (cryUpdater1 c ⟨[i], q :: q' :: qs, pall, rc, old⟩) = false := by
          simp [cryMachine, cryUpdater1_shape]
        rw [Machine.states_step _ _ hfin, filter_map_cons]
        have : (cryMachine c syms P).step (cryUpdater1 c ⟨[i], q :: q' :: qs, pall, rc, old⟩)
            = cryUpdater1 c ⟨[i], q :: q' :: qs, p :: ps, p, updateDistance c.r0 c.rmax old (V3.add rc q)⟩ := by
          simp [cryMachine, cryNext, cryUpdater1, hp]
        rw [this, ih p (p :: ps) rfl]
        simp only [List.flatMap_cons, List.append_assoc]
        congr 1
        exact spec_head c old i (V3.add rc q)
  | cons j rest ihr =>
    induction qs generalizing q rc ps pall old with
    | nil =>
      induction ps generalizing rc pall old with
      | nil =>
        have hfin : (cryMachine c syms P).fin (cryUpdater1 c ⟨i :: j :: rest, [q], pall, rc, old⟩) = false := by
          simp [cryMachine, cryUpdater1_shape]
        rw [Machine.states_step _ _ hfin, filter_map_cons]
        obtain ⟨q', qs', hq'⟩ := List.exists_cons_of_ne_nil (hsym j (by simp))
        have : (cryMachine c syms P).step (cryUpdater1 c ⟨i :: j :: rest, [q], pall, rc, old⟩)
            = cryUpdater1 c ⟨j :: rest, q' :: qs', P, P.headD V3.zero, updateDistance c.r0 c.rmax old (V3.add rc q)⟩ := by
          simp [cryMachine, cryNext, cryUpdater1, cryRewindSphere, hp, hq']
        rw [this, ihr (fun k hk => hsym k (by simp [hk])) j q' qs' _ _ P rfl]
        simp only [List.flatMap_cons, List.append_assoc, List.flatMap_nil, List.nil_append, hq']
        congr 1
        exact spec_head c old i (V3.add rc q)
      | cons p ps ih =>
        have hfin : (cryMachine c syms P).fin (cryUpdater1 c ⟨i :: j :: rest, [q], pall, rc, old⟩) = false := by
          simp [cryMachine, cryUpdater1_shape]
        rw [Machine.states_step _ _ hfin, filter_map_cons]
        have : (cryMachine c syms P).step (cryUpdater1 c ⟨i :: j :: rest, [q], pall, rc, old⟩)
            = cryUpdater1 c ⟨i :: j :: rest, [q], p :: ps, p, updateDistance c.r0 c.rmax old (V3.add rc q)⟩ := by
          simp [cryMachine, cryNext, cryUpdater1, hp]
        rw [this, ih p (p :: ps) rfl]
        simp only [List.flatMap_cons, List.append_assoc]
        congr 1
        exact spec_head c old i (V3.add rc q)
    | cons q' qs ihq =>
      induction ps generalizing rc pall old with
      | nil =>
        have hfin : (cryMachine c syms P).fin (cryUpdater1 c ⟨i :: j :: rest, q :: q' :: qs, pall, rc, old⟩) = false := by
          simp [cryMachine, cryUpdater1_shape]
        rw [Machine.states_step _ _ hfin, filter_map_cons]
        have : (cryMachine c syms P).step (cryUpdater1 c ⟨i :: j :: rest, q :: q' :: qs, pall, rc, old⟩)
            = cryUpdater1 c ⟨i :: j :: rest, q' :: qs, P, P.headD V3.zero, updateDistance c.r0 c.rmax old (V3.add rc q)⟩ := by
          simp [cryMachine, cryNext, cryUpdater1, cryRewindSphere, hp]
        rw [this, ihq q' _ _ P rfl]
        simp only [List.flatMap_cons, List.append_assoc, List.flatMap_nil, List.nil_append]
        congr 1
        exact spec_head c old i (V3.add rc q)
      | cons p ps ih =>
        have hfin : (cryMachine c syms P).fin (cryUpdater1 c ⟨i :: j :: rest, q :: q' :: qs, pall, rc, old⟩) = false := by
          simp [cryMachine, cryUpdater1_shape]
        rw [Machine.states_step _ _ hfin, filter_map_cons]
        have : (cryMachine c syms P).step (cryUpdater1 c ⟨i :: j :: rest, q :: q' :: qs, pall, rc, old⟩)
            = cryUpdater1 c ⟨i :: j :: rest, q :: q' :: qs, p :: ps, p, updateDistance c.r0 c.rmax old (V3.add rc q)⟩ := by
          simp [cryMachine, cryNext, cryUpdater1, hp]
        rw [this, ih p (p :: ps) rfl]
        simp only [List.flatMap_cons, List.append_assoc]
        congr 1
        exact spec_head c old i (V3.add rc q)

end Verif.BondGen
