import Verif.Model.Periodic
import Verif.Props.Points
import Verif.Props.BondGen
/-! # C15: periodic bond generation -/
namespace Verif.Periodic
open Verif.R3 Verif.MathUtils Verif.Lattice Verif.Points Verif.BondGen Classical

theorem latPar_proper (L : Lat) (h : Reachable L) : Proper (latPar L) := by
  have hL := good_of_reachable L h
  have e : latPar L = LatPar.create L.a L.b L.c L.alpha L.beta L.gamma := rfl
  have hsq := hL.v_pos
  have key : ∀ s c : ℝ, s * s + c * c = 1 → s ^ 2 + c ^ 2 = 1 := by intro s c h; linarith
  have c1 : (latPar L).ca = L.ca := hL.cosa
  have c2 : (latPar L).cb = L.cb := hL.cosb
  have c3 : (latPar L).cg = L.cg := hL.cosg
  have s1 : (latPar L).sa = L.sa := hL.sina
  have s2 : (latPar L).sb = L.sb := hL.sinb
  have s3 : (latPar L).sg = L.sg := hL.sing
  refine ⟨hL.a_pos, hL.b_pos, hL.c_pos, by rw [s1]; exact hL.sa_pos, by rw [s2]; exact hL.sb_pos,
    by rw [s3]; exact hL.sg_pos, by rw [s1, c1]; exact key _ _ hL.sa_sq,
    by rw [s2, c2]; exact key _ _ hL.sb_sq, by rw [s3, c3]; exact key _ _ hL.sg_sq, ?_⟩
  have hV : (0 : ℝ) < vnormSq (cosd L.alpha) (cosd L.beta) (cosd L.gamma) := by
    rw [hL.cosa, hL.cosb, hL.cosg]; exact hL.v_pos
  have p1 : 0 < sind L.alpha := by rw [hL.sina]; exact hL.sa_pos
  have p2 : 0 < sind L.beta := by rw [hL.sinb]; exact hL.sb_pos
  have p3 : 0 < sind L.gamma := by rw [hL.sing]; exact hL.sg_pos
  refine ⟨Real.sqrt (vnormSq (cosd L.alpha) (cosd L.beta) (cosd L.gamma)), Real.sqrt_pos.2 hV,
      Real.sq_sqrt hV.le, rfl, rfl, rfl, rfl, rfl, rfl, ?_, ?_, ?_⟩
  · have h := sgr_eq (cosd L.beta) (cosd L.gamma) (cosd L.alpha) _ _ p2 p3 (sind_sq _) (sind_sq _)
    have e : vnormSq (cosd L.beta) (cosd L.gamma) (cosd L.alpha)
        = vnormSq (cosd L.alpha) (cosd L.beta) (cosd L.gamma) := by unfold vnormSq; ring
    rw [e] at h; exact h
  · have h := sgr_eq (cosd L.alpha) (cosd L.gamma) (cosd L.beta) _ _ p1 p3 (sind_sq _) (sind_sq _)
    have e : vnormSq (cosd L.alpha) (cosd L.gamma) (cosd L.beta)
        = vnormSq (cosd L.alpha) (cosd L.beta) (cosd L.gamma) := by unfold vnormSq; ring
    rw [e] at h; exact h
  · exact sgr_eq (cosd L.alpha) (cosd L.beta) (cosd L.gamma) _ _ p1 p2 (sind_sq _) (sind_sq _)

/-- The radius reported by the iterator is the Cartesian length of the lattice vector. -/
theorem radius_eq_norm (L : Lat) (h : Reachable L) (t : ℤ × ℤ × ℤ) :
    radius (latPar L) t = V3.norm (L.cartesian (tripVec t)) := by
  have hL := good_of_reachable L h
  rw [← norm_cartesian L hL]
  unfold Points.radius Lat.norm Lat.dot
  rw [hL.metrics_eq]
  simp only [tripVec, latPar, LatPar.create, hL.cosa, hL.cosb, hL.cosg]
  ring_nf

/-- Fractional coordinates inside the half-open unit cell. -/
def InCell (u : V3) : Prop := (0 ≤ u.x ∧ u.x < 1) ∧ (0 ≤ u.y ∧ u.y < 1) ∧ (0 ≤ u.z ∧ u.z < 1)

/-- The buffered sphere covers every lattice point that can give a bond in range. -/
theorem sphere_covers (L : Lat) (h : Reachable L) (rmin rmax : ℝ) (l : List (ℤ × ℤ × ℤ))
    (hl : SphereVisits (rmin - L.ucMaxDiagonalLength) (rmax + L.ucMaxDiagonalLength) (latPar L) l)
    (u v : V3) (hu : InCell u) (hv : InCell v) (t : ℤ × ℤ × ℤ)
    (hd : GoodDist ⟨L.cartesian v, rmin, rmax⟩
      (V3.distance (V3.add (L.cartesian (tripVec t)) (L.cartesian u)) (L.cartesian v))) : t ∈ l := by
  obtain ⟨h1, h2, _⟩ := hd
  have hb := ucMaxDiagonal_bounds_strict L h u v hu hv
  simp only at h1 h2
  have hp := latPar_proper L h
  apply sphere_complete _ _ _ hp l hl t
  · rw [radius_eq_norm L h]
    have e : V3.sub (V3.add (L.cartesian (tripVec t)) (L.cartesian u)) (L.cartesian v)
        = V3.add (L.cartesian (tripVec t)) (V3.sub (L.cartesian u) (L.cartesian v)) := by
      ext <;> simp [V3.sub, V3.add] <;> ring
    have := V3.norm_add_le (L.cartesian (tripVec t)) (V3.sub (L.cartesian u) (L.cartesian v))
    rw [← e] at this
    unfold V3.distance at *
    linarith
  · rw [radius_eq_norm L h]
    have e : V3.sub (V3.sub (V3.add (L.cartesian (tripVec t)) (L.cartesian u)) (L.cartesian v))
        (V3.sub (L.cartesian u) (L.cartesian v)) = L.cartesian (tripVec t) := by
      ext <;> simp [V3.sub, V3.add]
    have := V3.norm_sub_le (V3.sub (V3.add (L.cartesian (tripVec t)) (L.cartesian u)) (L.cartesian v))
      (V3.sub (L.cartesian u) (L.cartesian v))
    rw [e] at this
    unfold V3.distance at *
    linarith

/-- The lattice point list as used by the loops (the origin when the sphere is empty): adding the
origin is harmless because it gives no bond in range. -/
theorem pts_cases (L : Lat) (l : List (ℤ × ℤ × ℤ)) :
    ((l.map fun t => L.cartesian (tripVec t)).headD V3.zero :: (l.map fun t => L.cartesian (tripVec t)).tail)
      = (l.headD (0, 0, 0) :: l.tail).map fun t => L.cartesian (tripVec t) := by
  cases l with
  | nil =>
    simp [tripVec, Lat.cartesian, M3.vecMul, V3.dot, V3.zero]
  | cons t l => simp

/-- **C15**, history part: whatever the sequence of `setRmin`, `setRmax` and `rewind` calls, the
sphere in use after a rewind is the one for the current limits. -/
theorem sphere_current (L : Lat) (rmin rmax : ℝ) (calls : List PCall) :
    let g := calls.foldl (PGen.call L) ⟨rmin, rmax, none⟩
    (g.rewind L).sphere = some (g.rmin - L.ucMaxDiagonalLength, g.rmax + L.ucMaxDiagonalLength) := by
  have inv : ∀ (calls : List PCall) (g : PGen),
      (g.sphere = none ∨ g.sphere = some (g.rmin - L.ucMaxDiagonalLength, g.rmax + L.ucMaxDiagonalLength)) →
      ((calls.foldl (PGen.call L) g).sphere = none ∨ (calls.foldl (PGen.call L) g).sphere =
        some ((calls.foldl (PGen.call L) g).rmin - L.ucMaxDiagonalLength,
          (calls.foldl (PGen.call L) g).rmax + L.ucMaxDiagonalLength)) := by
    intro calls
    induction calls with
    | nil => intro g hg; exact hg
    | cons a calls ih =>
      intro g hg
      apply ih
      cases a with
      | setRmin r =>
        unfold PGen.call PGen.setRmin
        simp only
        split
        · exact Or.inl rfl
        · rename_i hr
          have : g.rmin = r := by simpa using hr
          rw [← this]; exact hg
      | setRmax r =>
        unfold PGen.call PGen.setRmax
        simp only
        split
        · exact Or.inl rfl
        · rename_i hr
          have : g.rmax = r := by simpa using hr
          rw [← this]; exact hg
      | rewind =>
        unfold PGen.call PGen.rewind
        simp only
        cases hs : g.sphere with
        | none => exact Or.inr rfl
        | some x => rw [hs] at hg; simpa [hs] using hg
  intro g
  have := inv calls ⟨rmin, rmax, none⟩ (Or.inl rfl)
  have hg : g = calls.foldl (PGen.call L) ⟨rmin, rmax, none⟩ := rfl
  rw [← hg] at this
  unfold PGen.rewind
  rcases this with h | h <;> rw [h]
  simp only [h]

/-- The bond to the image of site `i` displaced by the lattice vector `t`, from the wrapped anchor. -/
noncomputable def imageBond (L : Lat) (xyz : Nat → V3) (anchor : Nat) (p : (ℤ × ℤ × ℤ) × Nat) : Bond :=
  let r1 := V3.add (L.cartesian (tripVec p.1)) (L.ucvCartesian (xyz p.2))
  let r0 := L.ucvCartesian (xyz anchor)
  ⟨p.2, r1, V3.sub r1 r0, V3.distance r1 r0⟩

theorem flatMap_filter_spec (c : BondGen.Cfg) (f : (ℤ × ℤ × ℤ) × Nat → V3) (ts : List (ℤ × ℤ × ℤ)) (sel : List Nat) :
    (ts.flatMap fun t => sel.flatMap fun i => specBond c i (f (t, i)))
      = ((ts.flatMap fun t => sel.map fun i => (t, i)).filter
          fun p => decide (GoodDist c (V3.distance (f p) c.r0))).map
          fun p => ⟨p.2, f p, V3.sub (f p) c.r0, V3.distance (f p) c.r0⟩ := by
  induction ts with
  | nil => rfl
  | cons t ts ih =>
    rw [List.flatMap_cons, List.flatMap_cons, List.filter_append, List.map_append, ← ih]
    congr 1
    clear ih
    induction sel with
    | nil => rfl
    | cons i sel ih2 =>
      rw [List.flatMap_cons, List.map_cons, List.filter_cons]
      have e : specBond c i (f (t, i)) = if GoodDist c (V3.distance (f (t, i)) c.r0) then
          [⟨i, f (t, i), V3.sub (f (t, i)) c.r0, V3.distance (f (t, i)) c.r0⟩] else [] := rfl
      rw [e]
      by_cases hg : GoodDist c (V3.distance (f (t, i)) c.r0)
      · rw [if_pos hg, if_pos (by simpa using hg), List.map_cons, ← ih2]; rfl
      · rw [if_neg hg, if_neg (by simpa using hg), ← ih2]; rfl

/-- **C15**: the loop visits exactly the lattice images of the selected sites that are in range,
each exactly once. -/
theorem periodic_bonds_exact (L : Lat) (h : Reachable L) (xyz : Nat → V3) (rmin rmax : ℝ)
    (calls : List PCall) (anchor : Nat) (sel : List Nat) (hsel : sel.Nodup) (old : Cur) (bonds : List Bond)
    (hb : PeriodicBonds L xyz (calls.foldl (PGen.call L) ⟨rmin, rmax, none⟩) anchor sel old bonds) :
    ∃ T : List ((ℤ × ℤ × ℤ) × Nat), T.Nodup ∧
      (∀ t i, (t, i) ∈ T ↔ i ∈ sel ∧
        GoodDist ⟨L.ucvCartesian (xyz anchor), (calls.foldl (PGen.call L) ⟨rmin, rmax, none⟩).rmin,
          (calls.foldl (PGen.call L) ⟨rmin, rmax, none⟩).rmax⟩ (imageBond L xyz anchor (t, i)).distance) ∧
      bonds = T.map (imageBond L xyz anchor) := by
  obtain ⟨lo, hi, l, hs, hv, rfl⟩ := hb
  have hcur := sphere_current L rmin rmax calls
  simp only at hcur
  generalize calls.foldl (PGen.call L) ⟨rmin, rmax, none⟩ = g at *
  rw [hcur] at hs
  simp only [Option.some.injEq, Prod.mk.injEq] at hs
  obtain ⟨rfl, rfl⟩ := hs
  set ts := l.headD (0, 0, 0) :: l.tail with hts
  have hcov : ∀ t i, GoodDist ⟨L.ucvCartesian (xyz anchor), g.rmin, g.rmax⟩
      (imageBond L xyz anchor (t, i)).distance → t ∈ l := by
    intro t i hd
    exact sphere_covers L h g.rmin g.rmax l hv (ucvFractional (L.fractional (xyz i)))
      (ucvFractional (L.fractional (xyz anchor))) (ucvFractional_range _) (ucvFractional_range _) t hd
  have hmem : ∀ t, t ∈ l → t ∈ ts := by
    intro t ht
    cases l with
    | nil => simp at ht
    | cons a l => simpa [hts] using ht
  have hnd : ts.Nodup := by
    have := sphere_nodup _ _ _ (latPar_proper L h) l hv
    cases l with
    | nil => simp [hts]
    | cons a l => simpa [hts] using this
  refine ⟨(ts.flatMap fun t => sel.map fun i => (t, i)).filter fun p =>
    decide (GoodDist ⟨L.ucvCartesian (xyz anchor), g.rmin, g.rmax⟩ (imageBond L xyz anchor p).distance), ?_, ?_, ?_⟩
  · apply List.Nodup.filter
    rw [List.nodup_flatMap]
    refine ⟨fun t _ => hsel.map fun i j hij => by simpa using hij, hnd.imp ?_⟩
    intro a b hab
    simp only [Function.onFun, List.disjoint_left, List.mem_map]
    rintro x ⟨i, _, rfl⟩ ⟨j, _, hj⟩
    simp only [Prod.mk.injEq] at hj
    exact hab hj.1.symm
  · intro t i
    simp only [List.mem_filter, List.mem_flatMap, List.mem_map, Prod.mk.injEq, decide_eq_true_eq]
    constructor
    · rintro ⟨⟨t', _, i', hi', rfl, rfl⟩, hd⟩; exact ⟨hi', hd⟩
    · rintro ⟨hi', hd⟩
      exact ⟨⟨t, hmem t (hcov t i hd), i, hi', rfl, rfl⟩, hd⟩
  · rw [per_loop_exact, pts_cases, ← hts]
    have := flatMap_filter_spec ⟨L.ucvCartesian (xyz anchor), g.rmin, g.rmax⟩
      (fun p => V3.add (L.cartesian (tripVec p.1)) (L.ucvCartesian (xyz p.2))) ts sel
    rw [List.flatMap_map]
    exact this

/-- No fractional coordinate lies within the tolerance just below an integer, so that wrapping into
the cell is an exact lattice translation. -/
def Unsnapped (L : Lat) (v : V3) : Prop :=
  ∀ n : ℤ, ∀ t ∈ [(L.fractional v).x, (L.fractional v).y, (L.fractional v).z],
    ¬ ((n : ℝ) - sqrtEps ≤ t ∧ t < n)

/-- **C15** in terms of the positions given by the user: the bond vectors are exactly
`xyz i + (lattice vector) - xyz anchor` for all lattice vectors in range, each once. -/
theorem periodic_bonds_user (L : Lat) (h : Reachable L) (xyz : Nat → V3) (rmin rmax : ℝ)
    (calls : List PCall) (anchor : Nat) (sel : List Nat) (hsel : sel.Nodup) (old : Cur) (bonds : List Bond)
    (hx : ∀ i, Unsnapped L (xyz i))
    (hb : PeriodicBonds L xyz (calls.foldl (PGen.call L) ⟨rmin, rmax, none⟩) anchor sel old bonds) :
    let g := calls.foldl (PGen.call L) ⟨rmin, rmax, none⟩
    let vec : (ℤ × ℤ × ℤ) → Nat → V3 := fun t i =>
      V3.sub (V3.add (xyz i) (L.cartesian (tripVec t))) (xyz anchor)
    ∃ T : List ((ℤ × ℤ × ℤ) × Nat), T.Nodup ∧
      (∀ t i, (t, i) ∈ T ↔ i ∈ sel ∧ g.rmin ≤ V3.norm (vec t i) ∧ V3.norm (vec t i) ≤ g.rmax ∧
        sqrtEps < V3.norm (vec t i)) ∧
      bonds.map (fun b => (b.site1, b.r01, b.distance))
        = T.map fun p => (p.2, vec p.1 p.2, V3.norm (vec p.1 p.2)) := by
  intro g vec
  obtain ⟨T, hT1, hT2, hT3⟩ := periodic_bonds_exact L h xyz rmin rmax calls anchor sel hsel old bonds hb
  have hk : ∀ i, ∃ k : ℤ × ℤ × ℤ, L.ucvCartesian (xyz i) = V3.sub (xyz i) (L.cartesian (tripVec k)) := by
    intro i
    obtain ⟨a, b, c, _, _, _, _, _, he⟩ := ucvCartesian_translation L h (xyz i)
    exact ⟨(a, b, c), he (hx i)⟩
  choose k hk using hk
  let sh : ℤ × ℤ × ℤ → Nat → ℤ × ℤ × ℤ := fun t i =>
    (t.1 - (k i).1 + (k anchor).1, t.2.1 - (k i).2.1 + (k anchor).2.1, t.2.2 - (k i).2.2 + (k anchor).2.2)
  let us : ℤ × ℤ × ℤ → Nat → ℤ × ℤ × ℤ := fun t i =>
    (t.1 + (k i).1 - (k anchor).1, t.2.1 + (k i).2.1 - (k anchor).2.1, t.2.2 + (k i).2.2 - (k anchor).2.2)
  have hus : ∀ t i, sh (us t i) i = t := by
    rintro ⟨a, b, c⟩ i
    simp only [sh, us, Prod.mk.injEq]
    refine ⟨by ring, by ring, by ring⟩
  have hsu : ∀ t i, us (sh t i) i = t := by
    rintro ⟨a, b, c⟩ i
    simp only [sh, us, Prod.mk.injEq]
    refine ⟨by ring, by ring, by ring⟩
  have hvec : ∀ t i, (imageBond L xyz anchor (t, i)).r01 = vec (sh t i) i := by
    intro t i
    unfold imageBond
    simp only [hk, vec, sh, Lat.cartesian, tripVec]
    ext <;> simp [V3.sub, V3.add, M3.vecMul, V3.dot, M3.c0, M3.c1, M3.c2] <;> ring
  have hdist : ∀ t i, (imageBond L xyz anchor (t, i)).distance = V3.norm (vec (sh t i) i) := by
    intro t i; rw [← hvec]; rfl
  refine ⟨T.map fun p => (sh p.1 p.2, p.2), ?_, ?_, ?_⟩
  · refine hT1.map ?_
    rintro ⟨t, i⟩ ⟨t', i'⟩ he
    have he' : (sh t i, i) = (sh t' i', i') := he
    simp only [Prod.mk.injEq] at he'
    obtain ⟨h1, rfl⟩ := he'
    have := congrArg (fun t => us t i) h1
    simp only [hsu] at this
    rw [this]
  · intro t i
    have : (t, i) ∈ T.map (fun p => (sh p.1 p.2, p.2)) ↔ (us t i, i) ∈ T := by
      rw [List.mem_map]
      constructor
      · rintro ⟨⟨a, b⟩, hab, he⟩
        have he' : (sh a b, b) = (t, i) := he
        rw [Prod.mk.injEq] at he'
        obtain ⟨rfl, rfl⟩ := he'
        rw [hsu]; exact hab
      · intro hm; exact ⟨(us t i, i), hm, by show (sh (us t i) i, i) = _; rw [hus]⟩
    rw [this, hT2, hdist, hus]
    rfl
  · rw [hT3, List.map_map, List.map_map]
    apply List.map_congr_left
    rintro ⟨t, i⟩ _
    simp only [Function.comp, Prod.mk.injEq]
    exact ⟨rfl, hvec t i, hdist t i⟩

/-- **C15**: the loop terminates with a determined list of bonds. -/
theorem periodic_bonds_unique (L : Lat) (xyz : Nat → V3) (g : PGen) (anchor : Nat) (sel : List Nat)
    (old : Cur) : ∃! bonds, PeriodicBonds L xyz g anchor sel old bonds := by
  have hsph : ∃ lo hi, (g.rewind L).sphere = some (lo, hi) := by
    unfold PGen.rewind
    cases hs : g.sphere with
    | none => exact ⟨_, _, rfl⟩
    | some x => exact ⟨x.1, x.2, hs⟩
  obtain ⟨lo, hi, hs⟩ := hsph
  obtain ⟨l, hl, hu⟩ := sphere_terminates lo hi (latPar L)
  refine ⟨_, ⟨lo, hi, l, hs, hl, rfl⟩, ?_⟩
  rintro b ⟨lo', hi', l', hs', hl', rfl⟩
  rw [hs] at hs'
  simp only [Option.some.injEq, Prod.mk.injEq] at hs'
  obtain ⟨rfl, rfl⟩ := hs'
  rw [hu l' hl']

/-! ### Non-vacuity -/

/-- A monoclinic lattice with a site at the origin and one at fractional (1/2, 1/2, 1/2): the
hypotheses of `periodic_bonds_user` hold. -/
theorem ex_monoclinic (L0 : Lat) (old : Cur) :
    let L := create L0 2 3 4 90 60 90
    let xyz : Nat → V3 := fun i => if i = 0 then V3.zero else L.cartesian ⟨1 / 2, 1 / 2, 1 / 2⟩
    Reachable L ∧ (∀ i, Unsnapped L (xyz i)) ∧
      ∃ bonds, PeriodicBonds L xyz ([PCall.setRmax 7, .rewind, .setRmin 1].foldl (PGen.call L) ⟨0, 1, none⟩)
        0 [0, 1] old bonds := by
  intro L xyz
  have hr : Reachable L := Reachable.create _ _ _ _ _ _ _ validPar_monoclinic
  refine ⟨hr, ?_, (periodic_bonds_unique L xyz _ 0 [0, 1] old).exists⟩
  intro i n t ht
  have he : sqrtEps = 1 / 2 ^ 26 := rfl
  have key : ∀ (x : ℝ), x = 0 ∨ x = 1 / 2 → ¬ ((n : ℝ) - sqrtEps ≤ x ∧ x < n) := by
    intro x hx ⟨h1, h2⟩
    rw [he] at h1
    rcases hx with rfl | rfl
    · have a1 : (n : ℝ) < 1 := by norm_num at h1 ⊢; linarith
      have a2 : (0 : ℝ) < n := h2
      have b1 : n < 1 := by exact_mod_cast a1
      have b2 : 0 < n := by exact_mod_cast a2
      omega
    · have a1 : (n : ℝ) < 1 := by norm_num at h1 ⊢; linarith
      have a2 : (0 : ℝ) < n := by linarith
      have b1 : n < 1 := by exact_mod_cast a1
      have b2 : 0 < n := by exact_mod_cast a2
      omega
  have hf : L.fractional (xyz i) = V3.zero ∨ L.fractional (xyz i) = ⟨1 / 2, 1 / 2, 1 / 2⟩ := by
    simp only [xyz]
    split
    · left; simp [Lat.fractional, M3.vecMul, V3.dot, V3.zero]
    · right; exact (cartesian_fractional L hr _).2
  rcases hf with hf | hf <;> rw [hf] at ht <;> simp [V3.zero] at ht <;> apply key
  · exact Or.inl ht
  · right; rw [ht]; norm_num

end Verif.Periodic
