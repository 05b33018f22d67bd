import Verif.Lemmas.Points
import Verif.Props.Lattice
/-!
# C18: lattice points in a spherical shell

`PointsInSphere` and `ReflectionsInQminQmax`.  The full property "visits exactly the triplets with
`Rmin ≤ r < Rmax`, each once" fails when a lattice point on the same line lies exactly at distance
`Rmin` (`sphere_inner_boundary_bug`); everything else is proved.
-/
namespace Verif.Points
open Verif.R3 Verif.MathUtils Verif.Lattice Classical

/-- Consistent direct and reciprocal parameters of a non-degenerate cell. -/
structure Proper (p : LatPar) : Prop where
  a_pos : 0 < p.a
  b_pos : 0 < p.b
  c_pos : 0 < p.c
  sa_pos : 0 < p.sa
  sb_pos : 0 < p.sb
  sg_pos : 0 < p.sg
  sa_sq : p.sa ^ 2 + p.ca ^ 2 = 1
  sb_sq : p.sb ^ 2 + p.cb ^ 2 = 1
  sg_sq : p.sg ^ 2 + p.cg ^ 2 = 1
  rest : ∃ V, 0 < V ∧ V ^ 2 = vnormSq p.ca p.cb p.cg ∧
    p.ar = p.sa / (p.a * V) ∧ p.br = p.sb / (p.b * V) ∧ p.cr = p.sg / (p.c * V) ∧
    p.car = (p.cb * p.cg - p.ca) / (p.sb * p.sg) ∧ p.cbr = (p.ca * p.cg - p.cb) / (p.sa * p.sg) ∧
    p.cgr = (p.ca * p.cb - p.cg) / (p.sa * p.sb) ∧
    p.sar = V / (p.sb * p.sg) ∧ p.sbr = V / (p.sa * p.sg) ∧ p.sgr = V / (p.sa * p.sb)

theorem create_proper (a b c al be ga : ℝ) (hv : ValidPar a b c al be ga) :
    Proper (LatPar.create a b c al be ga) := by
  obtain ⟨ha, hb, hc, hal, hbe, hga, hV⟩ := hv
  refine ⟨ha, hb, hc, sind_pos hal, sind_pos hbe, sind_pos hga, ?_, ?_, ?_, ?_⟩
  · have := sind_sq al; show sind al ^ 2 + cosd al ^ 2 = 1; linarith
  · have := sind_sq be; show sind be ^ 2 + cosd be ^ 2 = 1; linarith
  · have := sind_sq ga; show sind ga ^ 2 + cosd ga ^ 2 = 1; linarith
  · refine ⟨Real.sqrt (vnormSq (cosd al) (cosd be) (cosd ga)), Real.sqrt_pos.2 hV,
      Real.sq_sqrt hV.le, rfl, rfl, rfl, rfl, rfl, rfl, ?_, ?_, ?_⟩
    · have h := sgr_eq (cosd be) (cosd ga) (cosd al) _ _ (sind_pos hbe) (sind_pos hga) (sind_sq be) (sind_sq ga)
      have e : vnormSq (cosd be) (cosd ga) (cosd al) = vnormSq (cosd al) (cosd be) (cosd ga) := by
        unfold vnormSq; ring
      rw [e] at h; exact h
    · have h := sgr_eq (cosd al) (cosd ga) (cosd be) _ _ (sind_pos hal) (sind_pos hga) (sind_sq al) (sind_sq ga)
      have e : vnormSq (cosd al) (cosd ga) (cosd be) = vnormSq (cosd al) (cosd be) (cosd ga) := by
        unfold vnormSq; ring
      rw [e] at h; exact h
    · exact sgr_eq (cosd al) (cosd be) (cosd ga) _ _ (sind_pos hal) (sind_pos hbe) (sind_sq al) (sind_sq be)

theorem reciprocal_proper (p : LatPar) (h : Proper p) : Proper p.reciprocal := by
  obtain ⟨ha, hb, hc, hsa, hsb, hsg, ha2, hb2, hg2, V, hV, hV2, e1, e2, e3, e4, e5, e6, e7, e8, e9⟩ := h
  have ha2' : p.sa ^ 2 = 1 - p.ca ^ 2 := by linarith
  have hb2' : p.sb ^ 2 = 1 - p.cb ^ 2 := by linarith
  have hg2' : p.sg ^ 2 = 1 - p.cg ^ 2 := by linarith
  have pyth : ∀ (u v w s t : ℝ), 0 < s → 0 < t → s ^ 2 = 1 - u ^ 2 → t ^ 2 = 1 - v ^ 2 →
      V ^ 2 = vnormSq u v w → (V / (s * t)) ^ 2 + ((u * v - w) / (s * t)) ^ 2 = 1 := by
    intro u v w s t hs ht h1 h2 h3
    rw [div_pow, div_pow, mul_pow, h1, h2, ← add_div, div_eq_one_iff_eq, h3]
    · unfold vnormSq; ring
    · rw [← h1, ← h2]; positivity
  refine ⟨?_, ?_, ?_, ?_, ?_, ?_, ?_, ?_, ?_, ?_⟩
  · show 0 < p.ar; rw [e1]; positivity
  · show 0 < p.br; rw [e2]; positivity
  · show 0 < p.cr; rw [e3]; positivity
  · show 0 < p.sar; rw [e7]; positivity
  · show 0 < p.sbr; rw [e8]; positivity
  · show 0 < p.sgr; rw [e9]; positivity
  · show p.sar ^ 2 + p.car ^ 2 = 1
    rw [e7, e4]; exact pyth _ _ _ _ _ hsb hsg hb2' hg2' (by rw [hV2]; unfold vnormSq; ring)
  · show p.sbr ^ 2 + p.cbr ^ 2 = 1
    rw [e8, e5]; exact pyth _ _ _ _ _ hsa hsg ha2' hg2' (by rw [hV2]; unfold vnormSq; ring)
  · show p.sgr ^ 2 + p.cgr ^ 2 = 1
    rw [e9, e6]; exact pyth _ _ _ _ _ hsa hsb ha2' hb2' hV2
  · have ang : ∀ (u v w s t r : ℝ), 0 < s → 0 < t → 0 < r → s ^ 2 = 1 - u ^ 2 → V ^ 2 = vnormSq u v w →
        u = ((u * w - v) / (s * r) * ((u * v - w) / (s * t)) - (v * w - u) / (t * r)) / (V / (s * r) * (V / (s * t))) := by
      intro u v w s t r hs ht hr h1 h2
      rw [eq_div_iff (by positivity)]
      have : u * (V / (s * r) * (V / (s * t))) = u * V ^ 2 / (s ^ 2 * (r * t)) := by
        field_simp
      rw [this]
      have h3 : (u * w - v) / (s * r) * ((u * v - w) / (s * t)) - (v * w - u) / (t * r)
          = ((u * w - v) * (u * v - w) - (v * w - u) * s ^ 2) / (s ^ 2 * (r * t)) := by
        field_simp
      rw [h3, h2, h1]; congr 1; unfold vnormSq; ring
    refine ⟨V ^ 2 / (p.sa * p.sb * p.sg), by positivity, ?_, ?_, ?_, ?_, ?_, ?_, ?_, ?_, ?_, ?_⟩
    · show _ = vnormSq p.car p.cbr p.cgr
      rw [e4, e5, e6]
      have : vnormSq ((p.cb * p.cg - p.ca) / (p.sb * p.sg)) ((p.ca * p.cg - p.cb) / (p.sa * p.sg))
          ((p.ca * p.cb - p.cg) / (p.sa * p.sb)) =
          (p.sa ^ 2 * p.sb ^ 2 * p.sg ^ 2 + 2 * (p.cb * p.cg - p.ca) * (p.ca * p.cg - p.cb) * (p.ca * p.cb - p.cg)
            - p.sa ^ 2 * (p.cb * p.cg - p.ca) ^ 2 - p.sb ^ 2 * (p.ca * p.cg - p.cb) ^ 2
            - p.sg ^ 2 * (p.ca * p.cb - p.cg) ^ 2) / (p.sa * p.sb * p.sg) ^ 2 := by
        unfold vnormSq; field_simp
      rw [this, div_pow, hV2, ha2', hb2', hg2']
      congr 1
      unfold vnormSq; ring
    · show p.a = p.sar / (p.ar * _); rw [e7, e1]; field_simp
    · show p.b = p.sbr / (p.br * _); rw [e8, e2]; field_simp
    · show p.c = p.sgr / (p.cr * _); rw [e9, e3]; field_simp
    · show p.ca = (p.cbr * p.cgr - p.car) / (p.sbr * p.sgr)
      rw [e4, e5, e6, e8, e9]
      exact ang p.ca p.cb p.cg p.sa p.sb p.sg hsa hsb hsg ha2' hV2
    · show p.cb = (p.car * p.cgr - p.cbr) / (p.sar * p.sgr)
      rw [e4, e5, e6, e7, e9]
      have := ang p.cb p.ca p.cg p.sb p.sa p.sg hsb hsa hsg hb2' (by rw [hV2]; unfold vnormSq; ring)
      rw [mul_comm p.cb p.ca, mul_comm p.sb p.sa] at this
      exact this
    · show p.cg = (p.car * p.cbr - p.cgr) / (p.sar * p.sbr)
      rw [e4, e5, e6, e7, e8]
      have := ang p.cg p.ca p.cb p.sg p.sa p.sb hsg hsa hsb hg2' (by rw [hV2]; unfold vnormSq; ring)
      rw [mul_comm p.cg p.ca, mul_comm p.cg p.cb, mul_comm p.sg p.sa, mul_comm p.sg p.sb] at this
      exact this
    · show p.sa = _ / (p.sbr * p.sgr); rw [e8, e9]; field_simp
    · show p.sb = _ / (p.sar * p.sgr); rw [e7, e9]; field_simp
    · show p.sg = _ / (p.sar * p.sbr); rw [e7, e8]; field_simp

/-- Squared length of the lattice vector `m a + n b + o c`: the quadratic form of the metric tensor. -/
def lengthSq (p : LatPar) (t : ℤ × ℤ × ℤ) : ℝ :=
  (t.1 * p.a) ^ 2 + (t.2.1 * p.b) ^ 2 + (t.2.2 * p.c) ^ 2 + 2 * (t.1 * p.a) * (t.2.1 * p.b) * p.cg +
    2 * (t.1 * p.a) * (t.2.2 * p.c) * p.cb + 2 * (t.2.1 * p.b) * (t.2.2 * p.c) * p.ca

theorem init_pos (rmin rmax : ℝ) (p : LatPar) (h : Proper p) :
    0 < (init rmin rmax p).ar ∧ 0 < (init rmin rmax p).b2r ∧ 0 < (init rmin rmax p).c1r := by
  obtain ⟨ha, hb, hc, hsa, hsb, hsg, ha2, hb2, hg2, V, hV, hV2, e1, e2, e3, e4, e5, e6, e7, e8, e9⟩ := h
  refine ⟨?_, ?_, ?_⟩
  · show 0 < p.ar; rw [e1]; positivity
  · show 0 < 1 / (p.b * p.sa); positivity
  · show 0 < 1 / p.c; positivity

/-- The offsets used by the iterator add up to the squared length. -/
theorem offsets_eq (rmin rmax : ℝ) (p : LatPar) (h : Proper p) (m n o : ℤ) :
    pA (init rmin rmax p) m + pB (init rmin rmax p) m n + pC (init rmin rmax p) m n o
      = lengthSq p (m, n, o) := by
  obtain ⟨ha, hb, hc, hsa, hsb, hsg, ha2, hb2, hg2, V, hV, hV2, e1, e2, e3, e4, e5, e6, e7, e8, e9⟩ := h
  have ha2' : p.sa ^ 2 = 1 - p.ca ^ 2 := by linarith
  have hn0 : pN0 (init rmin rmax p) m = m * (p.a * (p.ca * p.cb - p.cg) / (p.b * p.sa ^ 2)) := by
    show (m : ℝ) * (p.cgr * p.br / p.ar) = _
    rw [e6, e2, e1]; congr 1; field_simp
  have hO : pO0 (init rmin rmax p) m n = m * (p.a * (p.ca * p.cg - p.cb) / (p.c * p.sa ^ 2))
      - (n - m * (p.a * (p.ca * p.cb - p.cg) / (p.b * p.sa ^ 2))) * (p.b * p.ca / p.c) := by
    show (m : ℝ) * (p.cbr * p.cr / p.ar) + ((n : ℝ) - pN0 (init rmin rmax p) m) *
      (-p.ca * (1 / (p.c * p.sa)) / (1 / (p.b * p.sa))) = _
    rw [hn0, e5, e3, e1]; field_simp; ring
  have hA : pA (init rmin rmax p) m = m ^ 2 * p.a ^ 2 * V ^ 2 / p.sa ^ 2 := by
    show ((m : ℝ) / p.ar) ^ 2 = _
    rw [e1]; field_simp
  have hB : pB (init rmin rmax p) m n =
      (n * p.b * p.sa ^ 2 - m * p.a * (p.ca * p.cb - p.cg)) ^ 2 / p.sa ^ 2 := by
    show (((n : ℝ) - pN0 (init rmin rmax p) m) / (1 / (p.b * p.sa))) ^ 2 = _
    rw [hn0]; field_simp
  have hC : pC (init rmin rmax p) m n o = (o * p.c + n * p.b * p.ca + m * p.a * p.cb) ^ 2 := by
    show (((o : ℝ) - pO0 (init rmin rmax p) m n) / (1 / p.c)) ^ 2 = _
    rw [hO]
    have : ((o : ℝ) - (m * (p.a * (p.ca * p.cg - p.cb) / (p.c * p.sa ^ 2))
        - (n - m * (p.a * (p.ca * p.cb - p.cg) / (p.b * p.sa ^ 2))) * (p.b * p.ca / p.c))) / (1 / p.c)
        = o * p.c + n * p.b * p.ca - m * p.a * (p.ca * p.cg - p.cb + p.ca * (p.ca * p.cb - p.cg)) / p.sa ^ 2 := by
      field_simp; ring
    rw [this]
    have h2 : p.ca * p.cg - p.cb + p.ca * (p.ca * p.cb - p.cg) = -p.cb * p.sa ^ 2 := by rw [ha2']; ring
    rw [h2]; field_simp; ring
  rw [hA, hB, hC, hV2, ← add_div]
  have key : (m : ℝ) ^ 2 * p.a ^ 2 * vnormSq p.ca p.cb p.cg +
      (n * p.b * p.sa ^ 2 - m * p.a * (p.ca * p.cb - p.cg)) ^ 2 =
      p.sa ^ 2 * (m ^ 2 * p.a ^ 2 * (1 - p.cb ^ 2) + n ^ 2 * p.b ^ 2 * p.sa ^ 2
        - 2 * m * n * p.a * p.b * (p.ca * p.cb - p.cg)) := by
    rw [ha2']; unfold vnormSq; ring
  rw [key, mul_div_cancel_left₀ _ (by positivity), ha2']
  unfold lengthSq; simp only; ring

theorem lengthSq_nonneg (p : LatPar) (h : Proper p) (t : ℤ × ℤ × ℤ) : 0 ≤ lengthSq p t := by
  obtain ⟨m, n, o⟩ := t
  rw [← offsets_eq 0 0 p h]
  have := sq_nonneg ((m : ℝ) / (init 0 0 p).ar)
  unfold pA pB pC
  positivity

/-- `r()` is the length of the lattice vector. -/
theorem radius_sq (p : LatPar) (h : Proper p) (t : ℤ × ℤ × ℤ) : radius p t ^ 2 = lengthSq p t := by
  have e : radius p t = Real.sqrt (lengthSq p t) := by
    unfold radius lengthSq; simp only; ring_nf
  rw [e, Real.sq_sqrt (lengthSq_nonneg p h t)]

theorem radius_nonneg (p : LatPar) (t : ℤ × ℤ × ℤ) : 0 ≤ radius p t := Real.sqrt_nonneg _

/-- **C18**: the loop over the iterator ends, and the visited list is determined. -/
theorem sphere_terminates (rmin rmax : ℝ) (p : LatPar) : ∃! l, SphereVisits rmin rmax p l := by
  refine ⟨allPoints (init rmin rmax p), ⟨0, rewind_visits _ _⟩, ?_⟩
  rintro l ⟨rp, hl⟩
  exact visits_unique _ _ _ _ hl (rewind_visits _ rp)

theorem sphere_eq (rmin rmax : ℝ) (p : LatPar) (l) (h : SphereVisits rmin rmax p l) :
    l = allPoints (init rmin rmax p) := by
  obtain ⟨rp, hl⟩ := h
  exact visits_unique _ _ _ _ hl (rewind_visits _ rp)

/-- **C18**: no triplet is visited twice. -/
theorem sphere_nodup (rmin rmax : ℝ) (p : LatPar) (hp : Proper p) (l) (h : SphereVisits rmin rmax p l) :
    l.Nodup := by
  rw [sphere_eq _ _ _ _ h]; exact nodup_allPoints _ (init_pos _ _ _ hp).2.2

/-- **C18**: every lattice point of the shell is visited. -/
theorem sphere_complete (rmin rmax : ℝ) (p : LatPar) (hp : Proper p) (l) (h : SphereVisits rmin rmax p l)
    (t : ℤ × ℤ × ℤ) (h1 : rmin ≤ radius p t) (h2 : radius p t < rmax) : t ∈ l := by
  obtain ⟨m, n, o⟩ := t
  obtain ⟨i1, i2, i3⟩ := init_pos rmin rmax p hp
  rw [sphere_eq _ _ _ _ h]
  have hr0 := radius_nonneg p (m, n, o)
  have hmax : 0 < rmax := lt_of_le_of_lt hr0 h2
  apply (mem_allPoints_sq (init rmin rmax p) rmax i1 i2 i3 rfl rfl m n o).2.1
  · rw [offsets_eq _ _ _ hp, ← radius_sq p hp]
    show _ < if rmax < 0 then -(rmax * rmax) else rmax * rmax
    rw [if_neg (not_lt.2 hmax.le)]; nlinarith
  · rw [offsets_eq _ _ _ hp, ← radius_sq p hp]
    show (if rmin < 0 then -(rmin * rmin) else rmin * rmin) ≤ _
    split
    · nlinarith [mul_self_nonneg rmin, sq_nonneg (radius p (m, n, o))]
    · nlinarith

/-- **C18**: nothing at or beyond the outer radius is visited, and a visited point is inside the
hole only if a smaller index on the same line gives a point exactly at the inner radius. -/
theorem sphere_sound_partial (rmin rmax : ℝ) (p : LatPar) (hp : Proper p) (l)
    (h : SphereVisits rmin rmax p l) (m n o : ℤ) (ht : (m, n, o) ∈ l) :
    radius p (m, n, o) < rmax ∧
      (rmin ≤ radius p (m, n, o) ∨ ∃ o' : ℤ, o' < o ∧ radius p (m, n, o') = rmin) := by
  obtain ⟨i1, i2, i3⟩ := init_pos rmin rmax p hp
  rw [sphere_eq _ _ _ _ h] at ht
  have hr0 := radius_nonneg p (m, n, o)
  obtain ⟨k1, _, k3, _⟩ := mem_allPoints_sq (init rmin rmax p) rmax i1 i2 i3 rfl rfl m n o
  obtain ⟨hmax, hlt⟩ := k1 ht
  rw [offsets_eq _ _ _ hp, ← radius_sq p hp] at hlt
  have hlt' : radius p (m, n, o) ^ 2 < if rmax < 0 then -(rmax * rmax) else rmax * rmax := hlt
  rw [if_neg (not_lt.2 hmax.le)] at hlt'
  constructor
  · nlinarith
  · by_cases hm : rmin ≤ radius p (m, n, o)
    · exact Or.inl hm
    · right
      rw [not_le] at hm
      have hmin : 0 < rmin := lt_of_le_of_lt hr0 hm
      have hE : (init rmin rmax p).RminSquare = rmin * rmin := if_neg (not_lt.2 hmin.le)
      obtain ⟨o', ho', he⟩ := k3 ht (by
        rw [offsets_eq _ _ _ hp, ← radius_sq p hp, hE]; nlinarith)
      refine ⟨o', ho', ?_⟩
      rw [offsets_eq _ _ _ hp, ← radius_sq p hp, hE] at he
      have := radius_nonneg p (m, n, o')
      nlinarith

/-- **C18**, exactly which triplets are visited: those of the shell, and the points inside the hole on lines along `c` that
enter the hole exactly at a lattice point. -/
theorem sphere_visits_iff (rmin rmax : ℝ) (p : LatPar) (hp : Proper p) (l)
    (h : SphereVisits rmin rmax p l) (m n o : ℤ) :
    (m, n, o) ∈ l ↔ radius p (m, n, o) < rmax ∧
      (rmin ≤ radius p (m, n, o) ∨ ∃ o' : ℤ, o' < o ∧ radius p (m, n, o') = rmin) := by
  refine ⟨sphere_sound_partial rmin rmax p hp l h m n o, ?_⟩
  rintro ⟨h2, h1⟩
  by_cases hin : rmin ≤ radius p (m, n, o)
  · exact sphere_complete rmin rmax p hp l h _ hin h2
  obtain ⟨o', ho', he⟩ := h1.resolve_left hin
  rw [not_le] at hin
  obtain ⟨i1, i2, i3⟩ := init_pos rmin rmax p hp
  rw [sphere_eq _ _ _ _ h]
  have hr0 := radius_nonneg p (m, n, o)
  have hmax : 0 < rmax := lt_of_le_of_lt hr0 h2
  have hmin : 0 < rmin := lt_of_le_of_lt hr0 hin
  have hE : (init rmin rmax p).RminSquare = rmin * rmin := if_neg (not_lt.2 hmin.le)
  apply (mem_allPoints_sq (init rmin rmax p) rmax i1 i2 i3 rfl rfl m n o).2.2.2
  · rw [offsets_eq _ _ _ hp, ← radius_sq p hp]
    show _ < if rmax < 0 then -(rmax * rmax) else rmax * rmax
    rw [if_neg (not_lt.2 hmax.le)]; nlinarith
  · rw [offsets_eq _ _ _ hp, ← radius_sq p hp, hE]; nlinarith
  · refine ⟨o', ho', ?_⟩
    rw [offsets_eq _ _ _ hp, ← radius_sq p hp, hE, he]; ring

/-- A triplet inside the hole is visited only after the lattice point where its line enters the hole. -/
theorem sphere_extra_entry (rmin rmax : ℝ) (p : LatPar) (hp : Proper p) (l)
    (h : SphereVisits rmin rmax p l) (m n o : ℤ) (ht : (m, n, o) ∈ l) (hin : radius p (m, n, o) < rmin)
    (hr : rmin < rmax) : ∃ o' : ℤ, o' < o ∧ radius p (m, n, o') = rmin ∧ (m, n, o') ∈ l := by
  obtain ⟨_, h2⟩ := sphere_sound_partial rmin rmax p hp l h m n o ht
  obtain ⟨o', ho', he⟩ := h2.resolve_left (not_le.2 hin)
  exact ⟨o', ho', he, sphere_complete rmin rmax p hp l h _ he.ge (he ▸ hr)⟩

/-- **C18** when no lattice point is exactly at the inner radius (in particular when `rmin ≤ 0`
with the origin excepted, see the next theorem): exact. -/
theorem sphere_exact_partial (rmin rmax : ℝ) (p : LatPar) (hp : Proper p) (l)
    (h : SphereVisits rmin rmax p l) (hno : ∀ t, radius p t ≠ rmin) (t : ℤ × ℤ × ℤ) :
    t ∈ l ↔ rmin ≤ radius p t ∧ radius p t < rmax := by
  constructor
  · intro ht
    obtain ⟨m, n, o⟩ := t
    obtain ⟨h1, h2⟩ := sphere_sound_partial rmin rmax p hp l h m n o ht
    refine ⟨?_, h1⟩
    rcases h2 with h2 | ⟨o', _, h2⟩
    · exact h2
    · exact absurd h2 (hno _)
  · rintro ⟨h1, h2⟩; exact sphere_complete rmin rmax p hp l h t h1 h2

/-- **C18** for a full sphere (`rmin ≤ 0`): exact without further condition. -/
theorem sphere_exact_full (rmin rmax : ℝ) (p : LatPar) (hp : Proper p) (l)
    (h : SphereVisits rmin rmax p l) (hmin : rmin ≤ 0) (t : ℤ × ℤ × ℤ) :
    t ∈ l ↔ radius p t < rmax := by
  constructor
  · intro ht
    obtain ⟨m, n, o⟩ := t
    exact (sphere_sound_partial rmin rmax p hp l h m n o ht).1
  · intro h2; exact sphere_complete rmin rmax p hp l h t (le_trans hmin (radius_nonneg p t)) h2

/-- **C18** for reflections: complete, without repetition, and bounded by `qmax`; `Q()` and `d()`
belong to the same lattice plane. -/
theorem reflections_complete (qmin qmax : ℝ) (p : LatPar) (hp : Proper p) (l)
    (h : ReflectionVisits qmin qmax p l) :
    l.Nodup ∧ (∀ t, qmin ≤ reflQ p t → reflQ p t < qmax → t ∈ l) ∧ (∀ t ∈ l, reflQ p t < qmax) ∧
    (qmin ≤ 0 → ∀ t, t ∈ l ↔ reflQ p t < qmax) ∧
    (∀ t, radius p.reciprocal t ≠ 0 → reflQ p t * reflD p t = 2 * Real.pi) := by
  have hr := reciprocal_proper p hp
  have hpi := Real.pi_pos
  have scale : ∀ q x : ℝ, q * (1 / Real.pi) / 2 ≤ x ↔ q ≤ 2 * Real.pi * x := by
    intro q x
    rw [show q * (1 / Real.pi) / 2 = q / (2 * Real.pi) by field_simp, div_le_iff₀ (by positivity), mul_comm]
  have scale2 : ∀ q x : ℝ, x < q * (1 / Real.pi) / 2 ↔ 2 * Real.pi * x < q := by
    intro q x
    rw [← not_le, scale, not_le]
  refine ⟨sphere_nodup _ _ _ hr l h, ?_, ?_, ?_, ?_⟩
  · intro t h1 h2
    exact sphere_complete _ _ _ hr l h t ((scale _ _).2 h1) ((scale2 _ _).2 h2)
  · rintro ⟨m, n, o⟩ ht
    exact (scale2 _ _).1 (sphere_sound_partial _ _ _ hr l h m n o ht).1
  · intro hq t
    rw [sphere_exact_full _ _ _ hr l h (by
      have : 0 ≤ 1 / Real.pi := by positivity
      nlinarith) t]
    exact scale2 _ _
  · intro t h0
    unfold reflQ reflD; field_simp

/-- **C18** for reflections by plane spacing (`ReflectionsInDmaxDmin`): for `0 < dmin` and `0 < dmax`, each set of planes with
`dmin < d ≤ dmax` is visited once and planes with `d ≤ dmin` are not visited; a plane with `d > dmax` is visited only if a lower `l` gives a
spacing of exactly `dmax`.  (The origin has no spacing and is left out of the statement.) -/
theorem spacing_visits_iff (dmax dmin : ℝ) (hmax : 0 < dmax) (hmin : 0 < dmin) (p : LatPar) (hp : Proper p) (l)
    (h : SpacingVisits dmax dmin p l) : l.Nodup ∧ ∀ m n o : ℤ, radius p.reciprocal (m, n, o) ≠ 0 →
      ((m, n, o) ∈ l ↔ dmin < reflD p (m, n, o) ∧
        (reflD p (m, n, o) ≤ dmax ∨ ∃ o' : ℤ, o' < o ∧ reflD p (m, n, o') = dmax)) := by
  have hr := reciprocal_proper p hp
  have hpi := Real.pi_pos
  have e : ∀ d : ℝ, 0 < d → 2 * Real.pi / d * (1 / Real.pi) / 2 = 1 / d := by
    intro d hd; field_simp
  unfold SpacingVisits ReflectionVisits at h
  rw [e _ hmax, e _ hmin] at h
  refine ⟨sphere_nodup _ _ _ hr l h, ?_⟩
  intro m n o h0
  rw [sphere_visits_iff _ _ _ hr l h]
  have hpos : 0 < radius p.reciprocal (m, n, o) := lt_of_le_of_ne (radius_nonneg _ _) (Ne.symm h0)
  have e3 : ∀ o' : ℤ, radius p.reciprocal (m, n, o') = 1 / dmax ↔ reflD p (m, n, o') = dmax := by
    intro o'
    unfold reflD
    constructor
    · intro h; rw [h]; field_simp
    · intro h; rw [← h]; field_simp
  simp only [e3]
  have e1 : radius p.reciprocal (m, n, o) < 1 / dmin ↔ dmin < reflD p (m, n, o) := by
    unfold reflD; rw [lt_div_iff₀ hmin, lt_div_iff₀ hpos, mul_comm]
  have e2 : 1 / dmax ≤ radius p.reciprocal (m, n, o) ↔ reflD p (m, n, o) ≤ dmax := by
    unfold reflD; rw [div_le_iff₀ hmax, div_le_iff₀ hpos, mul_comm]
  rw [e1, e2]

/-- The cubic unit lattice. -/
noncomputable def cubic : LatPar := LatPar.create 1 1 1 90 90 90

theorem cubic_vals : cubic = ⟨1, 1, 1, 0, 0, 0, 1, 1, 1, 1, 1, 1, 0, 0, 0, 1, 1, 1⟩ := by
  have c90 : cosd 90 = 0 := by have := (cosd_exact 0).2.2.1; simpa using this
  have s90 : sind 90 = 1 := by
    rw [sind_eq_sin]
    rw [show (90 : ℝ) * Real.pi / 180 = Real.pi / 2 by ring, Real.sin_pi_div_two]
  unfold cubic LatPar.create vnormSq
  simp only [c90, s90]
  norm_num

theorem cubic_valid : ValidPar 1 1 1 90 90 90 := by
  have c90 : cosd 90 = 0 := by have := (cosd_exact 0).2.2.1; simpa using this
  unfold ValidPar vnormSq; rw [c90]; norm_num

/-- Negation of the full C18: with `Rmin = 2`, `Rmax = 3` on the unit cubic lattice the origin,
at distance 0, is visited. -/
theorem sphere_inner_boundary_bug : ∃ l, SphereVisits 2 3 cubic l ∧ (0, 0, 0) ∈ l ∧ radius cubic (0, 0, 0) = 0 := by
  refine ⟨allPoints (init 2 3 cubic), ⟨0, rewind_visits _ _⟩, ?_, ?_⟩
  · rw [mem_allPoints]
    have hc : init 2 3 cubic = ⟨1, 4, 9, 0, 0, 0, 1, 1, 3⟩ := by
      rw [cubic_vals]; unfold init; norm_num
    rw [hc]
    have s9 : Real.sqrt 9 = 3 := by
      rw [show (9 : ℝ) = 3 ^ 2 by norm_num, Real.sqrt_sq (by norm_num)]
    have s4 : Real.sqrt 4 = 2 := by
      rw [show (4 : ℝ) = 2 ^ 2 by norm_num, Real.sqrt_sq (by norm_num)]
    have hn : nextM ⟨1, 4, 9, 0, 0, 0, 1, 1, 3⟩ (dummy (0 - 1)) = ⟨0, -3, 0, 3, 0, 0, 0, 0, 0, 0, 9⟩ := by
      unfold nextM dummy sqrtPos
      norm_num [s9]
    rw [hn]
    refine ⟨by norm_num, by norm_num, ?_⟩
    unfold lineRest setLine sqrtPos
    norm_num [s9, s4, mem_ints]
  · unfold radius; simp

/-- Non-vacuity: a monoclinic cell is proper, its reciprocal too. -/
example : Proper (LatPar.create 2 3 4 90 60 90) ∧ Proper (LatPar.create 2 3 4 90 60 90).reciprocal :=
  ⟨create_proper _ _ _ _ _ _ validPar_monoclinic, reciprocal_proper _ (create_proper _ _ _ _ _ _ validPar_monoclinic)⟩

/-- Non-vacuity of `sphere_exact_partial`: no cubic lattice point is at distance 1/2. -/
example : ∀ t, radius cubic t ≠ 1 / 2 := by
  intro t h
  have h2 := radius_sq cubic (create_proper _ _ _ _ _ _ cubic_valid) t
  rw [h, cubic_vals] at h2
  unfold lengthSq at h2
  simp only [mul_one, mul_zero, add_zero] at h2
  have : ((t.1 ^ 2 + t.2.1 ^ 2 + t.2.2 ^ 2 : ℤ) : ℝ) * 4 = 1 := by push_cast; linarith
  have h3 : (t.1 ^ 2 + t.2.1 ^ 2 + t.2.2 ^ 2 : ℤ) * 4 = 1 := by exact_mod_cast this
  omega

/-! ### Copies of an enumerator -/

/-- After `next`, an unfinished enumerator is inside a line. -/
theorem nextO_inside (c : Cfg) (s : St) (h : (nextO c s).m < c.hi_m) : (nextO c s).o < (nextO c s).hi_o := by
  fun_induction nextO c s with
  | case1 s s1 h1 => exact h1
  | case2 s s1 h1 h2 s2 h3 ih => exact ih h
  | case3 s s1 h1 h2 s2 h3 => exact absurd h h3
  | case4 s s1 h1 h2 s2 h3 ih => exact ih h
  | case5 s s1 h1 h2 s2 h3 => exact absurd h h3

/-- `next` of a copy made at a point does not move the copy; it changes the index `o` of the source. -/
theorem copy_next (c : Cfg) (k s : St) (h : k.o < k.hi_o) (fuel : Nat) :
    copyNext c (fuel + 1) (k, s) = some (k, { s with o := s.o + 1 }) := by
  unfold copyNext
  simp only
  rw [if_pos h]

/-- A loop over a copy never ends, whatever the sphere: for an enumerator that stands at a point (after
`rewind` or `next` and not finished), its copy stays at that point for ever. -/
theorem copy_never_ends_bug (c : Cfg) (s0 : St) (h : ¬ finished c (nextO c s0)) (l : List (ℤ × ℤ × ℤ)) :
    ¬ CopyVisits c (nextO c s0, nextO c s0) l := by
  have hm : (nextO c s0).m < c.hi_m := by unfold finished at h; exact not_not.1 h
  have hin := nextO_inside c s0 hm
  intro hv
  have key : ∀ ks l, CopyVisits c ks l → ks.1 = nextO c s0 → False := by
    intro ks l hv
    induction hv with
    | done ks hf => intro e; rw [e] at hf; exact h hf
    | next ks ks' fuel l _ hn _ ih =>
      intro e
      refine ih ?_
      obtain ⟨k, s⟩ := ks
      cases fuel with
      | zero => cases hn
      | succ fuel =>
        dsimp only at e
        rw [e, copy_next c _ s hin] at hn
        rw [← Option.some.inj hn]
  exact key _ l hv rfl

/-- The calls on the copy move the source along its line, also past the points it should visit. -/
theorem copy_moves_source_bug (c : Cfg) (s0 : St) (h : ¬ finished c (nextO c s0)) (j : Nat) :
    (fun ks => (copyNext c 1 ks).getD ks)^[j] (nextO c s0, nextO c s0) =
      (nextO c s0, { nextO c s0 with o := (nextO c s0).o + j }) := by
  have hm : (nextO c s0).m < c.hi_m := by unfold finished at h; exact not_not.1 h
  have hin := nextO_inside c s0 hm
  induction j with
  | zero => simp
  | succ j ih =>
    rw [Function.iterate_succ_apply', ih]
    dsimp only
    rw [copy_next c _ _ hin 0, Option.getD_some]
    push_cast
    rw [add_assoc]

theorem setLine_mn (c : Cfg) (s : St) : (setLine c s).m = s.m ∧ (setLine c s).n = s.n ∧ (setLine c s).hi_n = s.hi_n := by
  unfold setLine
  exact ⟨rfl, rfl, rfl⟩

theorem copyM_mno (c : Cfg) (ks : St × St) : (copyM c ks).1.mno = ks.1.mno ∧ (copyM c ks).2.m = ks.2.m + 1 := by
  unfold copyM
  dsimp only
  split <;> exact ⟨rfl, rfl⟩

theorem copyN_mno (c : Cfg) (fuel : Nat) (ks ks' : St × St) (h : copyN c fuel ks = some ks') : ks'.1.mno = ks.1.mno := by
  induction fuel generalizing ks with
  | zero => cases h
  | succ fuel ih =>
    obtain ⟨k, s⟩ := ks
    unfold copyN at h
    dsimp only at h
    split at h
    · cases h
      have := setLine_mn c k
      simp only [St.mno, this.1, this.2.1]
    · split at h
      · rw [ih _ h]; exact (copyM_mno c _).1
      · cases h; exact (copyM_mno c _).1

/-- **A copy is frozen**: no call of `next` on a copy changes the indices that it reports. -/
theorem copy_frozen_next (c : Cfg) (fuel : Nat) (ks ks' : St × St) (h : copyNext c fuel ks = some ks') :
    ks'.1.mno = ks.1.mno := by
  induction fuel generalizing ks with
  | zero => cases h
  | succ fuel ih =>
    obtain ⟨k, s⟩ := ks
    unfold copyNext at h
    dsimp only at h
    split at h
    · cases h; rfl
    · split at h
      · split at h
        · rw [ih _ h]; rfl
        · cases h; rfl
      · cases hN : copyN c fuel (k, { s with o := s.o + 1 }) with
        | none => rw [hN] at h; cases h
        | some ks2 =>
          rw [hN] at h
          have h2 := copyN_mno c fuel _ _ hN
          dsimp only at h
          split at h
          · rw [ih _ h, h2]
          · cases h; exact h2

/-- Neither does `rewind`. -/
theorem copy_frozen_rewind (c : Cfg) (fuel : Nat) (ks ks' : St × St) (h : copyRewind c fuel ks = some ks') :
    ks'.1.mno = ks.1.mno := by
  unfold copyRewind at h
  dsimp only at h
  rw [copy_frozen_next c fuel _ _ h]
  rfl

theorem nextN_finished (c : Cfg) (s : St) (hs : s.m < c.hi_m) (h : ¬ (nextN c s).m < c.hi_m) :
    (nextN c s).hi_n ≤ (nextN c s).n ∧ (nextN c s).o = s.o ∧ (nextN c s).hi_o = s.hi_o ∧
      (nextN c s).outside_o = s.outside_o := by
  fun_induction nextN c s with
  | case1 s s1 h1 => exact absurd (by rw [(setLine_mn c s1).1]; exact hs) h
  | case2 s s1 h1 s2 h2 ih =>
    obtain ⟨a, b, d, e⟩ := ih h2 h
    have hm : s2.o = s.o ∧ s2.hi_o = s.hi_o ∧ s2.outside_o = s.outside_o := by
      have : s2 = nextM c s1 := rfl
      rw [this]
      unfold nextM
      dsimp only
      split <;> exact ⟨rfl, rfl, rfl⟩
    exact ⟨a, by rw [b, hm.1], by rw [d, hm.2.1], by rw [e, hm.2.2]⟩
  | case3 s s1 h1 s2 h2 =>
    have hm : s2 = { s1 with m := s1.m + 1 } := by
      have : s2 = nextM c s1 := rfl
      rw [this] at h2 ⊢
      unfold nextM at h2 ⊢
      dsimp only at h2 ⊢
      split
      · rfl
      · rename_i hc
        rw [if_neg hc] at h2
        exact absurd (not_not.1 hc) h2
    rw [hm]
    exact ⟨not_lt.1 h1, rfl, rfl, rfl⟩

/-- The state of an enumerator at the end of its loop. -/
theorem nextO_finished (c : Cfg) (s : St) (hs : s.m < c.hi_m) (h : finished c (nextO c s)) :
    (nextO c s).hi_n ≤ (nextO c s).n ∧ (nextO c s).hi_o ≤ (nextO c s).o ∧ (nextO c s).hi_o = (nextO c s).outside_o := by
  unfold finished at h
  fun_induction nextO c s with
  | case1 s s1 h1 => exact absurd hs h
  | case2 s s1 h1 h2 s2 h3 ih => exact ih h3 h
  | case3 s s1 h1 h2 s2 h3 => exact absurd hs h3
  | case4 s s1 h1 h2 s2 h3 ih => exact ih h3 h
  | case5 s s1 h1 h2 s2 h3 =>
    obtain ⟨a, b, d, e⟩ := nextN_finished c s1 hs h3
    refine ⟨a, ?_, ?_⟩
    · show (nextN c s1).hi_o ≤ (nextN c s1).o
      rw [b, d]; exact not_lt.1 h1
    · show (nextN c s1).hi_o = (nextN c s1).outside_o
      rw [d, e]; exact not_not.1 h2

/-- `next` on a copy of an enumerator that has come to its end moves all three indices of the source. -/
theorem finished_copy_moves_source (c : Cfg) (s0 : St) (hs : s0.m < c.hi_m) (h : finished c (nextO c s0)) (s : St) (fuel : Nat) :
    copyNext c (fuel + 2) (nextO c s0, s) = some (nextO c s0, { s with m := s.m + 1, n := s.n + 1, o := s.o + 1 }) := by
  obtain ⟨a, b, d⟩ := nextO_finished c s0 hs h
  unfold finished at h
  generalize nextO c s0 = k at a b d h
  have hN : copyN c (fuel + 1) (k, { s with o := s.o + 1 }) =
      some (k, { s with m := s.m + 1, n := s.n + 1, o := s.o + 1 }) := by
    unfold copyN
    dsimp only
    rw [if_neg (not_lt.2 a)]
    unfold copyM
    dsimp only
    rw [if_pos h]
    dsimp only
    rw [if_neg h]
  unfold copyNext
  dsimp only
  rw [if_neg (not_lt.2 b), if_neg (not_not.2 d), hN]
  dsimp only
  rw [if_neg h]

/-- The hypothesis is met: the shell between 2 and 3 of the cubic lattice has a first point. -/
example : ∃ rp, ¬ finished (init 2 3 cubic) (rewind (init 2 3 cubic) rp) := by
  obtain ⟨l, ⟨rp, hv⟩, hl, -⟩ := sphere_inner_boundary_bug
  refine ⟨rp, ?_⟩
  cases hv with
  | done _ hf => cases hl
  | next _ _ hf _ => exact hf

end Verif.Points
