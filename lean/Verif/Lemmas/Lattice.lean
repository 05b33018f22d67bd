import Verif.Model.Lattice
import Verif.Lemmas.R3
import Verif.Props.MathUtils
/-! Lemmas on the lattice model. -/
namespace Verif.R3.M3

theorem det_mul (a b : M3) : det (mul a b) = det a * det b := by
  simp only [det, mul, vecMul, V3.dot, V3.cross, c0, c1, c2]; ring

theorem trans_mul (a b : M3) : trans (mul a b) = mul (trans b) (trans a) := by
  ext <;> simp only [mul, trans, vecMul, V3.dot, c0, c1, c2] <;> ring

theorem trans_trans (a : M3) : trans (trans a) = a := by
  ext <;> rfl

theorem det_trans (a : M3) : det (trans a) = det a := by
  simp only [det, trans, V3.dot, V3.cross, c0, c1, c2]; ring

theorem det_one : det one = 1 := by simp [det, one, V3.dot, V3.cross]

theorem trans_one : trans one = one := rfl

end Verif.R3.M3

namespace Verif.Lattice
open Verif.R3 Verif.MathUtils Classical

/-- What holds of a proper lattice. -/
structure Good (L : Lat) : Prop where
  a_pos : 0 < L.a
  b_pos : 0 < L.b
  c_pos : 0 < L.c
  sa_pos : 0 < L.sa
  sb_pos : 0 < L.sb
  sg_pos : 0 < L.sg
  sa_sq : L.sa * L.sa + L.ca * L.ca = 1
  sb_sq : L.sb * L.sb + L.cb * L.cb = 1
  sg_sq : L.sg * L.sg + L.cg * L.cg = 1
  v_pos : 0 < vnormSq L.ca L.cb L.cg
  cosa : cosd L.alpha = L.ca
  cosb : cosd L.beta = L.cb
  cosg : cosd L.gamma = L.cg
  sina : sind L.alpha = L.sa
  sinb : sind L.beta = L.sb
  sing : sind L.gamma = L.sg
  ar_eq : L.ar = L.sa / (L.a * L.volumeNormal)
  br_eq : L.br = L.sb / (L.b * L.volumeNormal)
  cr_eq : L.cr = L.sg / (L.c * L.volumeNormal)
  metrics_eq : L.metrics =
      ⟨⟨L.a * L.a, L.a * L.b * L.cg, L.a * L.c * L.cb⟩,
       ⟨L.a * L.b * L.cg, L.b * L.b, L.b * L.c * L.ca⟩,
       ⟨L.a * L.c * L.cb, L.b * L.c * L.ca, L.c * L.c⟩⟩
  gram : M3.mul L.base (M3.trans L.base) = L.metrics
  det_pos : 0 < M3.det L.base
  det_eq : M3.det L.base * M3.det L.base = L.volume * L.volume
  rec_eq : L.recbase = M3.inverse L.base
  rot : M3.mul L.baserot (M3.trans L.baserot) = M3.one
  rot_det : 0 < M3.det L.baserot
  split : L.base = M3.mul L.stdbase L.baserot
  std_eq : L.stdbase = L.updateReciprocal.updateMetrics.updateStandardBase.stdbase
  norm_eq : L.normbase = ⟨V3.smul L.ar L.base.r0, V3.smul L.br L.base.r1, V3.smul L.cr L.base.r2⟩
  recnorm_eq : L.recnormbase =
      ⟨⟨L.recbase.r0.x / L.ar, L.recbase.r0.y / L.br, L.recbase.r0.z / L.cr⟩,
       ⟨L.recbase.r1.x / L.ar, L.recbase.r1.y / L.br, L.recbase.r1.z / L.cr⟩,
       ⟨L.recbase.r2.x / L.ar, L.recbase.r2.y / L.br, L.recbase.r2.z / L.cr⟩⟩

/-- The trigonometric core of the standard base: with proper cosines and sines
`singr = V / (sin α sin β)`. -/
theorem sgr_eq (ca cb cg sa sb : ℝ) (ha : 0 < sa) (hb : 0 < sb) (ha2 : sa * sa + ca * ca = 1)
    (hb2 : sb * sb + cb * cb = 1) :
    Real.sqrt (1 - (ca * cb - cg) / (sa * sb) * ((ca * cb - cg) / (sa * sb)))
      = Real.sqrt (vnormSq ca cb cg) / (sa * sb) := by
  have hab : 0 < sa * sb := mul_pos ha hb
  have e : 1 - (ca * cb - cg) / (sa * sb) * ((ca * cb - cg) / (sa * sb))
      = vnormSq ca cb cg / ((sa * sb) ^ 2) := by
    have h1 : sa ^ 2 = 1 - ca ^ 2 := by linear_combination ha2
    have h2 : sb ^ 2 = 1 - cb ^ 2 := by linear_combination hb2
    rw [eq_div_iff (by positivity)]
    have h3 : sa ≠ 0 := ha.ne'
    have h4 : sb ≠ 0 := hb.ne'
    field_simp
    unfold vnormSq
    linear_combination (sb ^ 2) * h1 + (1 - ca ^ 2) * h2
  rw [e, Real.sqrt_div' _ (by positivity), Real.sqrt_sq hab.le]

/-- The standard base of proper parameters: its Gram matrix is the metric tensor and its
determinant is the cell volume. -/
theorem std_gram (a b c ca cb cg sa sb V : ℝ) (ha : 0 < a) (hsa : 0 < sa)
    (ha2 : sa * sa + ca * ca = 1) (hb2 : sb * sb + cb * cb = 1)
    (hV : 0 < V) (hV2 : V * V = vnormSq ca cb cg) (hsb : 0 < sb) (s : M3)
    (hs : s = ⟨⟨1 / (sa / (a * V)), -((ca * cb - cg) / (sa * sb)) / (V / (sa * sb)) / (sa / (a * V)), cb * a⟩,
       ⟨0, b * sa, b * ca⟩, ⟨0, 0, c⟩⟩) :
    M3.mul s (M3.trans s) = ⟨⟨a * a, a * b * cg, a * c * cb⟩, ⟨a * b * cg, b * b, b * c * ca⟩,
       ⟨a * c * cb, b * c * ca, c * c⟩⟩ ∧ M3.det s = V * a * b * c := by
  have e1 : 1 / (sa / (a * V)) = a * V / sa := by field_simp
  have e2 : -((ca * cb - cg) / (sa * sb)) / (V / (sa * sb)) / (sa / (a * V)) = a * (cg - ca * cb) / sa := by
    field_simp; ring
  rw [e1, e2] at hs
  have hsa' : sa ≠ 0 := hsa.ne'
  have h1 : sa ^ 2 = 1 - ca ^ 2 := by linear_combination ha2
  have h2 : sb ^ 2 = 1 - cb ^ 2 := by linear_combination hb2
  unfold vnormSq at hV2
  subst hs
  constructor
  · ext <;> simp only [M3.mul, M3.trans, M3.vecMul, V3.dot, M3.c0, M3.c1, M3.c2]
    · field_simp; linear_combination hV2 - (1 - cb ^ 2) * h1
    · field_simp; ring
    · field_simp; ring
    · field_simp; ring
    · linear_combination b ^ 2 * h1
    · field_simp; ring
    · field_simp; ring
    · field_simp; ring
    · ring
  · simp only [M3.det, V3.dot, V3.cross]; field_simp; ring

theorem sind_pos {x : ℝ} (h : 0 < x ∧ x < 180) : 0 < sind x := by
  rw [sind_eq_sin]
  have := Real.pi_pos
  apply Real.sin_pos_of_pos_of_lt_pi
  · have : 0 < x * Real.pi := mul_pos h.1 this
    linarith
  · have : x * Real.pi < 180 * Real.pi := mul_lt_mul_of_pos_right h.2 this
    linarith

theorem sind_sq (x : ℝ) : sind x * sind x + cosd x * cosd x = 1 := by
  rw [sind_eq_sin, cosd_eq_cos]
  have := Real.sin_sq_add_cos_sq (x * Real.pi / 180)
  nlinarith [this]

theorem setLatPar_good (L : Lat) (a b c al be ga : ℝ) (hv : ValidPar a b c al be ga)
    (hrot : M3.mul L.baserot (M3.trans L.baserot) = M3.one) (hdet : 0 < M3.det L.baserot) :
    Good (setLatPar L a b c al be ga) := by
  obtain ⟨ha, hb, hc, hal, hbe, hga, hV⟩ := hv
  have hVp : 0 < Real.sqrt (vnormSq (cosd al) (cosd be) (cosd ga)) := Real.sqrt_pos.2 hV
  have hV2 := Real.mul_self_sqrt hV.le
  obtain ⟨hgram, hdets⟩ := std_gram a b c (cosd al) (cosd be) (cosd ga) (sind al) (sind be)
    (Real.sqrt (vnormSq (cosd al) (cosd be) (cosd ga))) ha (sind_pos hal) (sind_sq al) (sind_sq be)
    hVp hV2 (sind_pos hbe) (setLatPar L a b c al be ga).stdbase (by
      simp only [setLatPar, Lat.updateRecNorm, Lat.updateStandardBase, Lat.updateMetrics,
        Lat.updateReciprocal, Lat.volumeNormal]
      rw [sgr_eq _ _ _ _ _ (sind_pos hal) (sind_pos hbe) (sind_sq al) (sind_sq be)])
  have hbase : (setLatPar L a b c al be ga).base
      = M3.mul (setLatPar L a b c al be ga).stdbase L.baserot := rfl
  have hdb : M3.det (setLatPar L a b c al be ga).base
      = (Real.sqrt (vnormSq (cosd al) (cosd be) (cosd ga)) * a * b * c) * M3.det L.baserot := by
    rw [hbase, M3.det_mul, hdets]
  have hrot1 : M3.det L.baserot * M3.det L.baserot = 1 := by
    have := congrArg M3.det hrot
    rwa [M3.det_mul, M3.det_trans, M3.det_one] at this
  constructor
  · exact ha
  · exact hb
  · exact hc
  · exact sind_pos hal
  · exact sind_pos hbe
  · exact sind_pos hga
  · exact sind_sq al
  · exact sind_sq be
  · exact sind_sq ga
  · exact hV
  · rfl
  · rfl
  · rfl
  · rfl
  · rfl
  · rfl
  · rfl
  · rfl
  · rfl
  · rfl
  · rw [hbase, M3.trans_mul, M3.mul_assoc, ← M3.mul_assoc L.baserot, hrot, M3.one_mul, hgram]; rfl
  · rw [hdb]; positivity
  · rw [hdb]
    have : (setLatPar L a b c al be ga).volume
      = Real.sqrt (vnormSq (cosd al) (cosd be) (cosd ga)) * a * b * c := rfl
    rw [this]
    linear_combination (Real.sqrt (vnormSq (cosd al) (cosd be) (cosd ga)) * a * b * c) ^ 2 * hrot1
  · rfl
  · exact hrot
  · exact hdet
  · exact hbase
  · rfl
  · rfl
  · rfl

theorem norm_pos_of_ne (v : V3) (h : V3.dot v v ≠ 0) : 0 < V3.norm v :=
  Real.sqrt_pos.2 (lt_of_le_of_ne (V3.dot_self_nonneg v) (Ne.symm h))

theorem dot_self_eq_zero (v : V3) (h : V3.dot v v = 0) : v = V3.zero := by
  apply V3.norm_eq_zero; unfold V3.norm; rw [h, Real.sqrt_zero]

theorem lagrange (u v : V3) :
    V3.dot (V3.cross u v) (V3.cross u v) = V3.dot u u * V3.dot v v - V3.dot u v * V3.dot u v := by
  unfold V3.dot V3.cross; ring

/-- Determinant squared as the Gram determinant. -/
theorem det_sq (va vb vc : V3) : M3.det ⟨va, vb, vc⟩ * M3.det ⟨va, vb, vc⟩
    = V3.dot va va * V3.dot vb vb * V3.dot vc vc + 2 * V3.dot vb vc * V3.dot va vc * V3.dot va vb
      - V3.dot va va * (V3.dot vb vc * V3.dot vb vc) - V3.dot vb vb * (V3.dot va vc * V3.dot va vc)
      - V3.dot vc vc * (V3.dot va vb * V3.dot va vb) := by
  unfold M3.det V3.dot V3.cross; ring

theorem det_zero_a (vb vc : V3) : M3.det ⟨V3.zero, vb, vc⟩ = 0 := by
  unfold M3.det V3.dot V3.cross V3.zero; ring
theorem det_zero_b (va vc : V3) : M3.det ⟨va, V3.zero, vc⟩ = 0 := by
  unfold M3.det V3.dot V3.cross V3.zero; ring
theorem det_zero_c (va vb : V3) : M3.det ⟨va, vb, V3.zero⟩ = 0 := by
  unfold M3.det V3.dot V3.cross V3.zero; ring

theorem det_perm (va vb vc : V3) : M3.det ⟨va, vb, vc⟩ = V3.dot va (V3.cross vb vc) ∧
    M3.det ⟨va, vb, vc⟩ = -V3.dot vb (V3.cross va vc) ∧
    M3.det ⟨va, vb, vc⟩ = V3.dot vc (V3.cross va vb) := by
  unfold M3.det V3.dot V3.cross; refine ⟨?_, ?_, ?_⟩ <;> ring

theorem dot_zero_right (u : V3) : V3.dot u V3.zero = 0 := by unfold V3.dot V3.zero; ring

/-- Sine of the angle between two vectors that are not parallel. -/
theorem sin_pos_of_cross (u v : V3) (hu : 0 < V3.norm u) (hv : 0 < V3.norm v)
    (h : V3.cross u v ≠ V3.zero) :
    0 < Real.sqrt (1 - V3.dot u v / (V3.norm u * V3.norm v) * (V3.dot u v / (V3.norm u * V3.norm v))) ∧
    Real.sqrt (1 - V3.dot u v / (V3.norm u * V3.norm v) * (V3.dot u v / (V3.norm u * V3.norm v))) *
      Real.sqrt (1 - V3.dot u v / (V3.norm u * V3.norm v) * (V3.dot u v / (V3.norm u * V3.norm v))) +
      V3.dot u v / (V3.norm u * V3.norm v) * (V3.dot u v / (V3.norm u * V3.norm v)) = 1 := by
  have hc : 0 < V3.dot (V3.cross u v) (V3.cross u v) := by
    refine lt_of_le_of_ne (V3.dot_self_nonneg _) (fun he => h (dot_self_eq_zero _ he.symm))
  rw [lagrange, ← V3.norm_sq u, ← V3.norm_sq v] at hc
  have hp : 0 < 1 - V3.dot u v / (V3.norm u * V3.norm v) * (V3.dot u v / (V3.norm u * V3.norm v)) := by
    have hne : V3.norm u * V3.norm v ≠ 0 := (mul_pos hu hv).ne'
    have e : 1 - V3.dot u v / (V3.norm u * V3.norm v) * (V3.dot u v / (V3.norm u * V3.norm v))
        = (V3.norm u * V3.norm u * (V3.norm v * V3.norm v) - V3.dot u v * V3.dot u v)
          / ((V3.norm u * V3.norm v) * (V3.norm u * V3.norm v)) := by
      field_simp
    rw [e]; exact div_pos hc (by positivity)
  refine ⟨Real.sqrt_pos.2 hp, ?_⟩
  rw [Real.mul_self_sqrt hp.le]; ring

theorem cosd_acosd (x : ℝ) (h : x * x < 1) : cosd (acosd x) = x ∧ sind (acosd x) = Real.sqrt (1 - x * x) := by
  have hp := Real.pi_ne_zero
  have hx : -1 ≤ x ∧ x ≤ 1 := ⟨by nlinarith, by nlinarith⟩
  rw [cosd_eq_cos, sind_eq_sin, acosd_eq_arccos]
  have e : Real.arccos x * 180 / Real.pi * Real.pi / 180 = Real.arccos x := by field_simp
  rw [e, Real.cos_arccos hx.1 hx.2, Real.sin_arccos, pow_two]
  exact ⟨rfl, rfl⟩

theorem setLatBase_ok (L : Lat) (va vb vc : V3) :
    (setLatBase L va vb vc).2 = true ↔ 1 / 10 ^ 8 ≤ M3.det ⟨va, vb, vc⟩ := by
  unfold setLatBase
  simp only
  split
  · rename_i h
    simp only [Bool.false_eq_true, false_iff, not_le]
    exact lt_of_le_of_lt (le_abs_self _) h
  · rename_i h
    split
    · rename_i h2
      simp only [Bool.false_eq_true, false_iff, not_le]
      exact lt_trans h2 (by norm_num)
    · rename_i h2
      rw [not_lt] at h h2
      rw [abs_of_nonneg h2] at h
      simpa using h

theorem setLatBase_good (L : Lat) (va vb vc : V3) (h : (setLatBase L va vb vc).2 = true) :
    Good (setLatBase L va vb vc).1 := by
  rw [setLatBase_ok] at h
  have hd : 0 < M3.det ⟨va, vb, vc⟩ := lt_of_lt_of_le (by norm_num) h
  have ha : 0 < V3.norm va := norm_pos_of_ne _ fun h0 => by
    rw [dot_self_eq_zero _ h0, det_zero_a] at hd; exact lt_irrefl _ hd
  have hb : 0 < V3.norm vb := norm_pos_of_ne _ fun h0 => by
    rw [dot_self_eq_zero _ h0, det_zero_b] at hd; exact lt_irrefl _ hd
  have hc : 0 < V3.norm vc := norm_pos_of_ne _ fun h0 => by
    rw [dot_self_eq_zero _ h0, det_zero_c] at hd; exact lt_irrefl _ hd
  obtain ⟨p1, p2, p3⟩ := det_perm va vb vc
  obtain ⟨hsa, hsa2⟩ := sin_pos_of_cross vb vc hb hc fun h0 => by
    rw [p1, h0, dot_zero_right] at hd; exact lt_irrefl _ hd
  obtain ⟨hsb, hsb2⟩ := sin_pos_of_cross va vc ha hc fun h0 => by
    rw [p2, h0, dot_zero_right] at hd; simp at hd
  obtain ⟨hsg, hsg2⟩ := sin_pos_of_cross va vb ha hb fun h0 => by
    rw [p3, h0, dot_zero_right] at hd; exact lt_irrefl _ hd
  have hlt : ∀ s x : ℝ, 0 < s → s * s + x * x = 1 → x * x < 1 := by
    intro s x h1 h2; have := mul_pos h1 h1; linarith
  -- the normal volume
  have hvol : M3.det ⟨va, vb, vc⟩ * M3.det ⟨va, vb, vc⟩ =
      vnormSq (V3.dot vb vc / (V3.norm vb * V3.norm vc)) (V3.dot va vc / (V3.norm va * V3.norm vc))
        (V3.dot va vb / (V3.norm va * V3.norm vb)) *
        (V3.norm va * V3.norm vb * V3.norm vc) ^ 2 := by
    rw [det_sq, ← V3.norm_sq va, ← V3.norm_sq vb, ← V3.norm_sq vc]
    unfold vnormSq
    have h1 := ha.ne'
    have h2 := hb.ne'
    have h3 := hc.ne'
    field_simp
    try ring
  have hV : 0 < vnormSq (V3.dot vb vc / (V3.norm vb * V3.norm vc))
      (V3.dot va vc / (V3.norm va * V3.norm vc)) (V3.dot va vb / (V3.norm va * V3.norm vb)) := by
    have h1 : 0 < M3.det ⟨va, vb, vc⟩ * M3.det ⟨va, vb, vc⟩ := mul_pos hd hd
    rw [hvol] at h1
    exact pos_of_mul_pos_left h1 (by positivity)
  generalize hca : V3.dot vb vc / (V3.norm vb * V3.norm vc) = ca at *
  generalize hcb : V3.dot va vc / (V3.norm va * V3.norm vc) = cb at *
  generalize hcg : V3.dot va vb / (V3.norm va * V3.norm vb) = cg at *
  have hVp := Real.sqrt_pos.2 hV
  have hV2 := Real.mul_self_sqrt hV.le
  have hnd : ¬ |M3.det ⟨va, vb, vc⟩| < 1 / 10 ^ 8 := by rw [abs_of_pos hd]; exact not_lt.2 h
  have hnn : ¬ M3.det ⟨va, vb, vc⟩ < 0 := not_lt.2 hd.le
  obtain ⟨M, hM⟩ : ∃ M, M = (setLatBase L va vb vc).1 := ⟨_, rfl⟩
  rw [← hM]
  unfold setLatBase at hM
  simp only [hnd, hnn, if_false, hca, hcb, hcg] at hM
  have hstd : M.stdbase = ⟨⟨1 / (Real.sqrt (1 - ca * ca) / (V3.norm va * Real.sqrt (vnormSq ca cb cg))),
      -((ca * cb - cg) / (Real.sqrt (1 - ca * ca) * Real.sqrt (1 - cb * cb))) /
        (Real.sqrt (vnormSq ca cb cg) / (Real.sqrt (1 - ca * ca) * Real.sqrt (1 - cb * cb))) /
        (Real.sqrt (1 - ca * ca) / (V3.norm va * Real.sqrt (vnormSq ca cb cg))), cb * V3.norm va⟩,
      ⟨0, V3.norm vb * Real.sqrt (1 - ca * ca), V3.norm vb * ca⟩, ⟨0, 0, V3.norm vc⟩⟩ := by
    rw [hM]
    simp only [Lat.updateRecNorm, Lat.updateStandardBase, Lat.updateMetrics,
        Lat.updateReciprocal, Lat.volumeNormal]
    rw [sgr_eq _ _ _ _ _ hsa hsb hsa2 hsb2]
  obtain ⟨hgram, hdets⟩ := std_gram _ _ _ ca cb cg _ _ _ ha hsa hsa2 hsb2 hVp hV2 hsb M.stdbase hstd
  have hmet : M.metrics = ⟨⟨V3.norm va * V3.norm va, V3.norm va * V3.norm vb * cg, V3.norm va * V3.norm vc * cb⟩,
       ⟨V3.norm va * V3.norm vb * cg, V3.norm vb * V3.norm vb, V3.norm vb * V3.norm vc * ca⟩,
       ⟨V3.norm va * V3.norm vc * cb, V3.norm vb * V3.norm vc * ca, V3.norm vc * V3.norm vc⟩⟩ := by
    rw [hM]; rfl
  have hbase : M.base = ⟨va, vb, vc⟩ := by rw [hM]; rfl
  have hrotd : M.baserot = M3.mul (M3.inverse M.stdbase) M.base := by rw [hM]; rfl
  have hca' : V3.norm vb * V3.norm vc * ca = V3.dot vb vc := by
    rw [← hca]; field_simp
  have hcb' : V3.norm va * V3.norm vc * cb = V3.dot va vc := by
    rw [← hcb]; field_simp
  have hcg' : V3.norm va * V3.norm vb * cg = V3.dot va vb := by
    rw [← hcg]; field_simp
  have hbg : M3.mul M.base (M3.trans M.base) = M.metrics := by
    rw [hmet, hca', hcb', hcg', V3.norm_sq, V3.norm_sq, V3.norm_sq, hbase]
    ext <;> simp only [M3.mul, M3.trans, M3.vecMul, V3.dot, M3.c0, M3.c1, M3.c2] <;> ring
  have hds : 0 < M3.det M.stdbase := by rw [hdets]; positivity
  have hsplit : M.base = M3.mul M.stdbase M.baserot := by
    rw [hrotd, ← M3.mul_assoc, M3.mul_inverse _ hds.ne', M3.one_mul]
  have hrot : M3.mul M.baserot (M3.trans M.baserot) = M3.one := by
    rw [hrotd, M3.trans_mul, M3.mul_assoc, ← M3.mul_assoc M.base, hbg, hmet, ← hgram, M3.mul_assoc,
      ← M3.trans_mul, M3.inverse_mul _ hds.ne', M3.trans_one, M3.mul_one, M3.inverse_mul _ hds.ne']
  have hdetb : M3.det M.base = M3.det M.stdbase * M3.det M.baserot := by
    rw [← M3.det_mul, ← hsplit]
  have hdb : 0 < M3.det M.base := by rw [hbase]; exact hd
  obtain ⟨a1, a2⟩ := cosd_acosd ca (hlt _ _ hsa hsa2)
  obtain ⟨b1, b2⟩ := cosd_acosd cb (hlt _ _ hsb hsb2)
  obtain ⟨g1, g2⟩ := cosd_acosd cg (hlt _ _ hsg hsg2)
  have mcos : M.ca = ca ∧ M.cb = cb ∧ M.cg = cg ∧ M.a = V3.norm va ∧ M.b = V3.norm vb ∧
      M.c = V3.norm vc := by rw [hM]; exact ⟨rfl, rfl, rfl, rfl, rfl, rfl⟩
  have msin : M.sa = Real.sqrt (1 - ca * ca) ∧ M.sb = Real.sqrt (1 - cb * cb) ∧
      M.sg = Real.sqrt (1 - cg * cg) ∧ M.alpha = acosd ca ∧ M.beta = acosd cb ∧ M.gamma = acosd cg := by
    rw [hM]; exact ⟨rfl, rfl, rfl, rfl, rfl, rfl⟩
  obtain ⟨e1, e2, e3, e4, e5, e6⟩ := mcos
  obtain ⟨f1, f2, f3, f4, f5, f6⟩ := msin
  constructor
  · rw [e4]; exact ha
  · rw [e5]; exact hb
  · rw [e6]; exact hc
  · rw [f1]; exact hsa
  · rw [f2]; exact hsb
  · rw [f3]; exact hsg
  · rw [f1, e1]; exact hsa2
  · rw [f2, e2]; exact hsb2
  · rw [f3, e3]; exact hsg2
  · rw [e1, e2, e3]; exact hV
  · rw [f4, e1]; exact a1
  · rw [f5, e2]; exact b1
  · rw [f6, e3]; exact g1
  · rw [f4, f1]; exact a2
  · rw [f5, f2]; exact b2
  · rw [f6, f3]; exact g2
  · rw [hM]; rfl
  · rw [hM]; rfl
  · rw [hM]; rfl
  · rw [hmet, e1, e2, e3, e4, e5, e6]
  · exact hbg
  · exact hdb
  · rw [hbase, hvol]
    unfold Lat.volume Lat.volumeNormal
    rw [e1, e2, e3, e4, e5, e6]
    linear_combination -(V3.norm va * V3.norm vb * V3.norm vc) ^ 2 * hV2
  · rw [hM]; rfl
  · exact hrot
  · rw [hdetb] at hdb; exact pos_of_mul_pos_right hdb hds.le
  · exact hsplit
  · rw [hM]; rfl
  · rw [hM]; rfl
  · rw [hM]; rfl

/-- Every lattice a program can obtain without a failed call is a proper one. -/
theorem good_of_reachable (L : Lat) (h : Reachable L) : Good L := by
  induction h with
  | create L0 a b c al be ga hv =>
    refine setLatPar_good _ a b c al be ga hv ?_ ?_
    · show M3.mul M3.one (M3.trans M3.one) = M3.one
      rw [M3.one_mul, M3.trans_one]
    · show 0 < M3.det M3.one
      rw [M3.det_one]; norm_num
  | setLatPar L a b c al be ga _ hv ih => exact setLatPar_good L a b c al be ga hv ih.rot ih.rot_det
  | setLatBase L va vb vc _ hok _ => exact setLatBase_good L va vb vc hok
  | createBase L0 va vb vc hok => exact setLatBase_good L0 va vb vc hok

end Verif.Lattice
