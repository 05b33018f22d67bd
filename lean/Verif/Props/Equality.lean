import Verif.Model.Equality
import Verif.Model.Crystal
import Verif.Props.Lattice
import Verif.Props.Crystal
import Mathlib.Order.WithBot
import Mathlib.Data.Prod.Lex
import Mathlib.Data.List.Lex
import Mathlib.Order.RelClasses
import Mathlib.Tactic.Tauto
/-! **C73** Equality, order and hashing of atoms, lattices and structures. -/
set_option linter.unusedSectionVars false
namespace Verif.Lattice
open Verif.R3 Verif.MathUtils Classical

/-- The reciprocal members of a reachable lattice are functions of its cosines and sines, its angles are in range. -/
theorem recip_of_reachable (L : Lat) (h : Reachable L) :
    (L.car = (L.cb * L.cg - L.ca) / (L.sb * L.sg) ∧ L.cbr = (L.ca * L.cg - L.cb) / (L.sa * L.sg) ∧
      L.cgr = (L.ca * L.cb - L.cg) / (L.sa * L.sb)) ∧
    (L.sar = Real.sqrt (1 - L.car * L.car) ∧ L.sbr = Real.sqrt (1 - L.cbr * L.cbr) ∧
      L.sgr = Real.sqrt (1 - L.cgr * L.cgr)) ∧
    L.alpha = Real.arccos L.ca * 180 / Real.pi ∧ L.beta = Real.arccos L.cb * 180 / Real.pi ∧
      L.gamma = Real.arccos L.cg * 180 / Real.pi := by
  have ang : ∀ x : ℝ, 0 < x ∧ x < 180 → x = Real.arccos (cosd x) * 180 / Real.pi := by
    rintro x ⟨h0, h1⟩
    have hpi := Real.pi_pos
    rw [cosd_eq_cos, Real.arccos_cos (by positivity) (by rw [div_le_iff₀ (by norm_num)]; nlinarith)]
    field_simp
  have base : ∀ (L0 : Lat) (va vb vc : V3), (setLatBase L0 va vb vc).2 = true →
      let L := (setLatBase L0 va vb vc).1
      (L.car = (L.cb * L.cg - L.ca) / (L.sb * L.sg) ∧ L.cbr = (L.ca * L.cg - L.cb) / (L.sa * L.sg) ∧
        L.cgr = (L.ca * L.cb - L.cg) / (L.sa * L.sb)) ∧
      (L.sar = Real.sqrt (1 - L.car * L.car) ∧ L.sbr = Real.sqrt (1 - L.cbr * L.cbr) ∧
        L.sgr = Real.sqrt (1 - L.cgr * L.cgr)) ∧
      L.alpha = Real.arccos L.ca * 180 / Real.pi ∧ L.beta = Real.arccos L.cb * 180 / Real.pi ∧
        L.gamma = Real.arccos L.cg * 180 / Real.pi := by
    intro L0 va vb vc hok
    unfold setLatBase at hok ⊢
    dsimp only at hok ⊢
    split at hok
    · simp at hok
    · split at hok
      · simp at hok
      · rename_i h1 h2
        rw [if_neg h1, if_neg h2]
        exact ⟨⟨rfl, rfl, rfl⟩, ⟨rfl, rfl, rfl⟩, acosd_eq_arccos _, acosd_eq_arccos _, acosd_eq_arccos _⟩
  cases h with
  | create L0 a b c al be ga hv =>
    obtain ⟨_, _, _, h1, h2, h3, _⟩ := hv
    exact ⟨⟨rfl, rfl, rfl⟩, ⟨rfl, rfl, rfl⟩, ang _ h1, ang _ h2, ang _ h3⟩
  | setLatPar L a b c al be ga _ hv =>
    obtain ⟨_, _, _, h1, h2, h3, _⟩ := hv
    exact ⟨⟨rfl, rfl, rfl⟩, ⟨rfl, rfl, rfl⟩, ang _ h1, ang _ h2, ang _ h3⟩
  | setLatBase L va vb vc _ hok => exact base L va vb vc hok
  | createBase L0 va vb vc hok => exact base L0 va vb vc hok

/-- **C73**: lattices that compare equal are equal in every respect: parameters, reciprocal parameters, metric, orientation and
conversion matrices. -/
theorem equal_lattices (L M : Lat) (hL : Reachable L) (hM : Reachable M) : L.equal M ↔ L = M := by
  refine ⟨?_, fun h => by rw [h]; rfl⟩
  intro hb
  have hb : L.base = M.base := hb
  have gL := good_of_reachable L hL
  have gM := good_of_reachable M hM
  obtain ⟨ra, rb, rc, rca, rcb, rcg, _⟩ := parameters_of_base L hL
  obtain ⟨sa, sb, sc, sca, scb, scg, _⟩ := parameters_of_base M hM
  obtain ⟨⟨l1, l2, l3⟩, ⟨l4, l5, l6⟩, l7, l8, l9⟩ := recip_of_reachable L hL
  obtain ⟨⟨m1, m2, m3⟩, ⟨m4, m5, m6⟩, m7, m8, m9⟩ := recip_of_reachable M hM
  rw [← cosd_eq_cos, gL.cosa] at rca
  rw [← cosd_eq_cos, gL.cosb] at rcb
  rw [← cosd_eq_cos, gL.cosg] at rcg
  rw [← cosd_eq_cos, gM.cosa] at sca
  rw [← cosd_eq_cos, gM.cosb] at scb
  rw [← cosd_eq_cos, gM.cosg] at scg
  have ea : L.a = M.a := by rw [ra, sa, hb]
  have eb : L.b = M.b := by rw [rb, sb, hb]
  have ec : L.c = M.c := by rw [rc, sc, hb]
  have eca : L.ca = M.ca := by rw [rca, sca, hb]
  have ecb : L.cb = M.cb := by rw [rcb, scb, hb]
  have ecg : L.cg = M.cg := by rw [rcg, scg, hb]
  have esq : ∀ s t c : ℝ, 0 < s → 0 < t → s * s + c * c = 1 → t * t + c * c = 1 → s = t := by
    intro s t c hs ht h1 h2
    exact (mul_self_inj hs.le ht.le).1 (by linarith only [h1, h2])
  have esa : L.sa = M.sa := esq _ _ _ gL.sa_pos gM.sa_pos gL.sa_sq (eca ▸ gM.sa_sq)
  have esb : L.sb = M.sb := esq _ _ _ gL.sb_pos gM.sb_pos gL.sb_sq (ecb ▸ gM.sb_sq)
  have esg : L.sg = M.sg := esq _ _ _ gL.sg_pos gM.sg_pos gL.sg_sq (ecg ▸ gM.sg_sq)
  have eal : L.alpha = M.alpha := by rw [l7, m7, eca]
  have ebe : L.beta = M.beta := by rw [l8, m8, ecb]
  have ega : L.gamma = M.gamma := by rw [l9, m9, ecg]
  have ev : L.volumeNormal = M.volumeNormal := by unfold Lat.volumeNormal; rw [eca, ecb, ecg]
  have ear : L.ar = M.ar := by rw [gL.ar_eq, gM.ar_eq, esa, ea, ev]
  have ebr : L.br = M.br := by rw [gL.br_eq, gM.br_eq, esb, eb, ev]
  have ecr : L.cr = M.cr := by rw [gL.cr_eq, gM.cr_eq, esg, ec, ev]
  have ecar : L.car = M.car := by rw [l1, m1, ecb, ecg, eca, esb, esg]
  have ecbr : L.cbr = M.cbr := by rw [l2, m2, ecb, ecg, eca, esa, esg]
  have ecgr : L.cgr = M.cgr := by rw [l3, m3, ecb, ecg, eca, esa, esb]
  have esar : L.sar = M.sar := by rw [l4, m4, ecar]
  have esbr : L.sbr = M.sbr := by rw [l5, m5, ecbr]
  have esgr : L.sgr = M.sgr := by rw [l6, m6, ecgr]
  have emet : L.metrics = M.metrics := by rw [← gL.gram, ← gM.gram, hb]
  have estd : L.stdbase = M.stdbase := by
    rw [gL.std_eq, gM.std_eq]
    simp only [Lat.updateStandardBase, Lat.updateMetrics, Lat.updateReciprocal]
    rw [ev, ea, eb, ec, eca, ecb, ecg, esa, esb]
  have edet : M3.det M.stdbase ≠ 0 := by
    intro h0
    have := gM.det_pos
    rw [gM.split, M3.det_mul, h0, MulZeroClass.zero_mul] at this
    exact lt_irrefl _ this
  have erot : L.baserot = M.baserot := by
    have h1 : M3.mul M.stdbase L.baserot = M3.mul M.stdbase M.baserot := by
      rw [← gM.split, ← hb, gL.split, estd]
    have h2 := congrArg (M3.mul (M3.inverse M.stdbase)) h1
    rwa [← M3.mul_assoc, ← M3.mul_assoc, M3.inverse_mul _ edet, M3.one_mul, M3.one_mul] at h2
  have erec : L.recbase = M.recbase := by rw [gL.rec_eq, gM.rec_eq, hb]
  have enb : L.normbase = M.normbase := by rw [gL.norm_eq, gM.norm_eq, hb, ear, ebr, ecr]
  have ern : L.recnormbase = M.recnormbase := by rw [gL.recnorm_eq, gM.recnorm_eq, erec, ear, ebr, ecr]
  exact Lat.ext ea eb ec eal ebe ega eca ecb ecg esa esb esg ear ebr ecr ecar ecbr ecgr esar esbr esgr emet hb estd
    erot erec enb ern

end Verif.Lattice

namespace Verif.Equality

/-! ### Specification -/

/-- The number that a `double` other than NaN stands for, in the order of the extended rationals. -/
def Fl.val : Fl → WithBot (WithTop Rat)
  | .nan => ⊥
  | .ninf => ⊥
  | .pinf => ((⊤ : WithTop Rat) : WithBot (WithTop Rat))
  | .fin x _ => ((x : WithTop Rat) : WithBot (WithTop Rat))

/-- The numbers in a vector and in a matrix. -/
def Vec.vals (v : Vec) : List (WithBot (WithTop Rat)) := v.data.map Fl.val
def Mat.vals (m : Mat) : List (WithBot (WithTop Rat)) := m.data.map Fl.val

/-- What an atom says: type, position, occupancy, anisotropy flag and displacement tensor, as numbers. -/
def Atom.content (a : Atom) : String × List (WithBot (WithTop Rat)) × WithBot (WithTop Rat) × Bool × List (WithBot (WithTop Rat)) :=
  (a.atomtype, a.xyz.vals, a.occupancy.val, a.anisotropy, a.uij.vals)

/-- No member is NaN. -/
def Vec.NoNan (v : Vec) : Prop := ∀ x ∈ v.data, x.isNan = false
def Mat.NoNan (m : Mat) : Prop := ∀ x ∈ m.data, x.isNan = false
def Atom.NoNan (a : Atom) : Prop := a.xyz.NoNan ∧ a.occupancy.isNan = false ∧ a.uij.NoNan
def SymOp.NoNan (o : SymOp) : Prop := o.R.NoNan ∧ o.t.NoNan

/-- What an operation says. -/
def SymOp.content (o : SymOp) : List (WithBot (WithTop Rat)) × List (WithBot (WithTop Rat)) := (o.R.vals, o.t.vals)

/-! ### Comparison of numbers -/

theorem Fl.eq_iff (x y : Fl) : x.eq y = true ↔ x.isNan = false ∧ y.isNan = false ∧ x.val = y.val := by
  cases x <;> cases y <;> simp [Fl.eq, Fl.isNan, Fl.val]

theorem Fl.lt_iff (x y : Fl) (hx : x.isNan = false) (hy : y.isNan = false) : x.lt y = true ↔ x.val < y.val := by
  cases x <;> cases y <;> simp_all [Fl.lt, Fl.isNan, Fl.val]
  exact WithBot.coe_lt_coe.2 (WithTop.coe_lt_top _)

theorem rangeEq_iff (l m : List Fl) (h : l.length = m.length) :
    rangeEq l m = true ↔ (∀ x ∈ l, x.isNan = false) ∧ (∀ x ∈ m, x.isNan = false) ∧ l.map Fl.val = m.map Fl.val := by
  induction l generalizing m with
  | nil => cases m with
    | nil => simp [rangeEq]
    | cons b m => simp at h
  | cons a l ih => cases m with
    | nil => simp at h
    | cons b m =>
      simp only [rangeEq, Bool.and_eq_true, Fl.eq_iff, ih m (by simpa using h), List.mem_cons, forall_eq_or_imp,
        List.map_cons, List.cons.injEq]
      tauto

theorem Vec.eq_iff (u v : Vec) : u.eq v = true ↔ u.NoNan ∧ v.NoNan ∧ u.vals = v.vals :=
  rangeEq_iff u.data v.data rfl

theorem Mat.eq_iff (a b : Mat) : Mat.eq false a b = true ↔ a.NoNan ∧ b.NoNan ∧ a.vals = b.vals := by
  unfold Mat.eq; rw [Bool.false_or]; exact rangeEq_iff a.data b.data rfl

/-- **C73**: two atoms (different objects) compare equal exactly when neither contains NaN and they say the same; `-0.0` and
`0.0` are the same. -/
theorem atom_eq_iff (a b : Atom) : Atom.eq false a b = true ↔ a.NoNan ∧ b.NoNan ∧ a.content = b.content := by
  unfold Atom.eq
  simp only [Bool.false_or, Bool.and_eq_true, decide_eq_true_eq, beq_iff_eq, Vec.eq_iff, Fl.eq_iff, Mat.eq_iff,
    Atom.NoNan, Atom.content, Prod.mk.injEq]
  tauto

/-- **C73**: equality of atoms is an equivalence relation on atoms without NaN. -/
theorem atom_eq_equiv :
    (∀ a : Atom, a.NoNan → Atom.eq false a a = true) ∧ (∀ a b, Atom.eq false a b = Atom.eq false b a) ∧
    (∀ a b c, Atom.eq false a b = true → Atom.eq false b c = true → Atom.eq false a c = true) := by
  refine ⟨fun a h => (atom_eq_iff a a).2 ⟨h, h, rfl⟩, ?_, ?_⟩
  · intro a b
    rw [Bool.eq_iff_iff, atom_eq_iff, atom_eq_iff]
    constructor <;> rintro ⟨h1, h2, h3⟩ <;> exact ⟨h2, h1, h3.symm⟩
  · intro a b c h1 h2
    rw [atom_eq_iff] at *
    exact ⟨h1.1, h2.2.1, h1.2.2.trans h2.2.2⟩

/-- **C73**: an atom with NaN differs from every other object, its own copy included, and equals itself as an object. -/
theorem atom_eq_nan (a : Atom) (h : ¬ a.NoNan) :
    (∀ b, Atom.eq false a b = false) ∧ Atom.ne false a a = true ∧ Atom.eq true a a = true := by
  have h1 : ∀ b, Atom.eq false a b = false := by
    intro b
    rw [Bool.eq_false_iff]
    intro h2
    exact h ((atom_eq_iff a b).1 h2).1
  exact ⟨h1, by unfold Atom.ne; rw [h1]; rfl, rfl⟩

/-! ### Hash -/

theorem hash_fl (H : Hash) (x y : Fl) (h : x.eq y = true) : H.fl x = H.fl y := by
  rw [Fl.eq_iff] at h
  cases x <;> cases y <;> simp_all [Fl.isNan, Fl.val, Hash.fl]

theorem hash_range_aux (H : Hash) (l m : List Fl) (hl : l.length = m.length) (h : rangeEq l m = true) (s : Nat) :
    l.foldl (fun seed x => H.combine seed (H.fl x)) s = m.foldl (fun seed x => H.combine seed (H.fl x)) s := by
  induction l generalizing m s with
  | nil => cases m with
    | nil => rfl
    | cons _ _ => simp at hl
  | cons a l ih => cases m with
    | nil => simp at hl
    | cons b m =>
      simp only [rangeEq, Bool.and_eq_true] at h
      simp only [List.foldl_cons, hash_fl H a b h.1]
      exact ih m (by simpa using hl) h.2 _

/-- **C73**: atoms that compare equal have the same hash, whatever the hash functions of numbers and strings are. -/
theorem atom_hash (H : Hash) (a b : Atom) (h : Atom.eq false a b = true) : H.atom a = H.atom b := by
  unfold Atom.eq Mat.eq at h
  simp only [Bool.false_or, Bool.and_eq_true, decide_eq_true_eq, beq_iff_eq] at h
  obtain ⟨⟨⟨⟨h1, h2⟩, h3⟩, h4⟩, h5⟩ := h
  unfold Hash.atom Hash.vec Hash.mat Hash.range
  rw [h1, hash_range_aux H a.xyz.data b.xyz.data rfl h2, hash_fl H _ _ h3, h4,
    hash_range_aux H a.uij.data b.uij.data rfl h5]

/-- The same for vectors and matrices. -/
theorem vec_mat_hash (H : Hash) : (∀ u v : Vec, u.eq v = true → H.vec u = H.vec v) ∧
    (∀ a b : Mat, Mat.eq false a b = true → H.mat a = H.mat b) := by
  refine ⟨fun u v h => hash_range_aux H u.data v.data rfl h 0,
    fun a b h => hash_range_aux H a.data b.data rfl ?_ 0⟩
  simpa [Mat.eq] using h

/-! ### Order -/

theorem cmpLoop_eq (l m : List Fl) (h : l.length = m.length) (hl : ∀ x ∈ l, x.isNan = false)
    (hm : ∀ x ∈ m, x.isNan = false) :
    cmpLoop l m = if l.map Fl.val < m.map Fl.val then some true
      else if m.map Fl.val < l.map Fl.val then some false else none := by
  induction l generalizing m with
  | nil => cases m with
    | nil => simp [cmpLoop]
    | cons _ _ => simp at h
  | cons a l ih => cases m with
    | nil => simp at h
    | cons b m =>
      have ha := hl a (by simp)
      have hb := hm b (by simp)
      have hrec := ih m (by simpa using h) (fun x hx => hl x (by simp [hx])) (fun x hx => hm x (by simp [hx]))
      simp only [cmpLoop, List.map_cons, List.cons_lt_cons_iff, hrec]
      have e1 := Fl.lt_iff a b ha hb
      have e2 := Fl.lt_iff b a hb ha
      rcases lt_trichotomy a.val b.val with h1 | h1 | h1
      · have h2 := not_lt.2 h1.le
        rw [if_pos (e1.2 h1), if_pos (Or.inl h1)]
      · have h2 : ¬ a.val < b.val := not_lt.2 h1.ge
        have h3 : ¬ b.val < a.val := not_lt.2 h1.le
        rw [if_neg (fun h => h2 (e1.1 h)), if_neg (fun h => h3 (e2.1 h))]
        simp only [h1, lt_irrefl, false_or, true_and]
      · have h2 : ¬ a.val < b.val := not_lt.2 h1.le
        rw [if_neg (fun h => h2 (e1.1 h)), if_pos (e2.2 h1), if_neg, if_pos (Or.inl h1)]
        rintro (h3 | ⟨h3, _⟩)
        · exact h2 h3
        · rw [h3] at h1; exact lt_irrefl _ h1

/-- The sort key of an atom: type, then the numbers in the order in which `operator<` looks at them. -/
def Atom.key (a : Atom) : String ×ₗ (List (WithBot (WithTop Rat)) ×ₗ (WithBot (WithTop Rat) ×ₗ
    (Bool ×ₗ List (WithBot (WithTop Rat))))) :=
  toLex (a.atomtype, toLex (a.xyz.vals, toLex (a.occupancy.val, toLex (a.anisotropy, a.uij.vals))))

theorem key_eq_iff (a b : Atom) : a.key = b.key ↔ a.content = b.content := by
  unfold Atom.key Atom.content
  simp only [toLex_inj, Prod.mk.injEq]

/-- **C73**: atoms without NaN are ordered lexicographically by type, position, occupancy, anisotropy and tensor. -/
theorem atom_lt_iff (a b : Atom) (ha : a.NoNan) (hb : b.NoNan) : a.lt b = true ↔ a.key < b.key := by
  unfold Atom.lt Atom.key
  simp only [Prod.Lex.toLex_lt_toLex]
  rw [cmpLoop_eq a.xyz.data b.xyz.data rfl ha.1 hb.1, cmpLoop_eq a.uij.data b.uij.data rfl ha.2.2 hb.2.2]
  have e1 := Fl.lt_iff _ _ ha.2.1 hb.2.1
  have e2 := Fl.lt_iff _ _ hb.2.1 ha.2.1
  rcases lt_trichotomy a.atomtype b.atomtype with h1 | h1 | h1
  · simp [h1]
  · have hx : Vec.vals a.xyz = a.xyz.data.map Fl.val := rfl
    have hy : Vec.vals b.xyz = b.xyz.data.map Fl.val := rfl
    have ux : Mat.vals a.uij = a.uij.data.map Fl.val := rfl
    have uy : Mat.vals b.uij = b.uij.data.map Fl.val := rfl
    rw [← hx, ← hy, ← ux, ← uy]
    simp only [h1, lt_irrefl, gt_iff_lt, if_false, false_or, true_and]
    rcases lt_trichotomy a.xyz.vals b.xyz.vals with h2 | h2 | h2
    · simp [h2]
    · simp only [h2, lt_irrefl, if_false, false_or, true_and]
      rcases lt_trichotomy a.occupancy.val b.occupancy.val with h3 | h3 | h3
      · simp [h3, e1.2 h3]
      · have n1 : ¬ a.occupancy.lt b.occupancy = true := fun h => by have := e1.1 h; rw [h3] at this; exact lt_irrefl _ this
        have n2 : ¬ b.occupancy.lt a.occupancy = true := fun h => by have := e2.1 h; rw [h3] at this; exact lt_irrefl _ this
        rw [if_neg n1, if_neg n2]
        simp only [h3, lt_irrefl, false_or, true_and]
        rcases lt_trichotomy a.anisotropy b.anisotropy with h4 | h4 | h4
        · simp [h4]
        · simp only [h4, lt_irrefl, if_false, false_or, true_and]
          rcases lt_trichotomy a.uij.vals b.uij.vals with h5 | h5 | h5
          · simp [h5]
          · simp [h5]
          · simp [h5, not_lt.2 h5.le]
        · have : ¬ a.anisotropy < b.anisotropy := not_lt.2 h4.le
          have n3 : a.anisotropy ≠ b.anisotropy := fun h => by rw [h] at h4; exact lt_irrefl _ h4
          simp [h4, this, n3]
      · have n1 : ¬ a.occupancy.lt b.occupancy = true := fun h => not_lt.2 h3.le (e1.1 h)
        have n3 : a.occupancy.val ≠ b.occupancy.val := fun h => by rw [h] at h3; exact lt_irrefl _ h3
        rw [if_neg n1, if_pos (e2.2 h3)]
        simp [not_lt.2 h3.le, n3]
    · have n3 : a.xyz.vals ≠ b.xyz.vals := fun h => by rw [h] at h2; exact lt_irrefl _ h2
      simp [h2, not_lt.2 h2.le, n3]
  · have n3 : a.atomtype ≠ b.atomtype := fun h => by rw [h] at h1; exact lt_irrefl _ h1
    simp [h1, not_lt.2 h1.le, n3]

/-- **C73**: on atoms without NaN the comparison operators are those of one total order whose equality is `==`: exactly one of
`a < b`, `a == b`, `a > b` holds, `<` is transitive, `<=` is `<` or `==`. -/
theorem atom_order (a b c : Atom) (ha : a.NoNan) (hb : b.NoNan) (hc : c.NoNan) :
    (a.lt b = true ∧ b.lt c = true → a.lt c = true) ∧
    (Atom.eq false a b = true ↔ a.lt b = false ∧ a.gt b = false) ∧
    ¬ (a.lt b = true ∧ a.gt b = true) ∧
    (a.le b = true ↔ a.lt b = true ∨ Atom.eq false a b = true) ∧
    (a.ge b = true ↔ a.gt b = true ∨ Atom.eq false a b = true) := by
  have e := atom_lt_iff a b ha hb
  have e' := atom_lt_iff b a hb ha
  have q : Atom.eq false a b = true ↔ a.key = b.key := by
    rw [atom_eq_iff, key_eq_iff]; tauto
  refine ⟨?_, ?_, ?_, ?_, ?_⟩
  · rw [e, atom_lt_iff b c hb hc, atom_lt_iff a c ha hc]; rintro ⟨h1, h2⟩; exact lt_trans h1 h2
  · unfold Atom.gt
    rw [q, ← Bool.not_eq_true, ← Bool.not_eq_true, e, e', not_lt, not_lt]
    constructor
    · intro h; exact ⟨h.ge, h.le⟩
    · rintro ⟨h1, h2⟩; exact le_antisymm h2 h1
  · unfold Atom.gt; rw [e, e']; rintro ⟨h1, h2⟩; exact lt_asymm h1 h2
  · unfold Atom.le
    rw [Bool.not_eq_true', ← Bool.not_eq_true, e', e, q, not_lt]; exact le_iff_lt_or_eq
  · unfold Atom.ge Atom.gt
    rw [Bool.not_eq_true', ← Bool.not_eq_true, e', e, q, not_lt, le_iff_lt_or_eq]
    constructor <;> rintro (h | h)
    · exact Or.inl h
    · exact Or.inr h.symm
    · exact Or.inl h
    · exact Or.inr h.symm

/-- An atom at position `x` on the first axis. -/
def exAt (x : Fl) : Atom :=
  ⟨"C", ⟨x, .fin 0 false, .fin 0 false⟩, .fin 1 false, false,
    ⟨⟨.fin 0 false, .fin 0 false, .fin 0 false⟩, ⟨.fin 0 false, .fin 0 false, .fin 0 false⟩,
      ⟨.fin 0 false, .fin 0 false, .fin 0 false⟩⟩⟩

/-- With NaN the order breaks down: neither of `1` and NaN, nor of NaN and `2`, is before the other, but `1` is before `2`.
This violates what `std::sort` and `std::set_symmetric_difference` demand of their comparison, so the difference of structures
with NaN positions is undefined when it gets to the sorted comparison. -/
theorem order_nan_bug :
    (exAt (.fin 1 false)).lt (exAt .nan) = false ∧ (exAt .nan).lt (exAt (.fin 1 false)) = false ∧
    (exAt (.fin 2 false)).lt (exAt .nan) = false ∧ (exAt .nan).lt (exAt (.fin 2 false)) = false ∧
    (exAt (.fin 1 false)).lt (exAt (.fin 2 false)) = true := by decide +kernel

/-- Non-vacuity: zeros of both signs are equal and hash equal, infinities are equal, atoms are ordered. -/
example : Atom.eq false (exAt (.fin 0 true)) (exAt (.fin 0 false)) = true ∧
    Atom.eq false (exAt .pinf) (exAt .pinf) = true ∧ Atom.eq false (exAt .pinf) (exAt .ninf) = false ∧
    (exAt .ninf).lt (exAt (.fin (-3) false)) = true ∧ (exAt (.fin 1 false)).NoNan := by
  refine ⟨by decide +kernel, by decide +kernel, by decide +kernel, by decide +kernel, ?_⟩
  refine ⟨?_, rfl, ?_⟩
  · intro x hx; revert x; decide +kernel
  · intro x hx; revert x; decide +kernel

/-! ### Structures -/

/-- What a list of atoms says, and that none of them contains NaN. -/
theorem atomsEq_iff (l m : List Atom) :
    atomsEq false l m = true ↔ (∀ a ∈ l, a.NoNan) ∧ (∀ a ∈ m, a.NoNan) ∧ l.map Atom.content = m.map Atom.content := by
  induction l generalizing m with
  | nil => cases m <;> simp [atomsEq]
  | cons a l ih => cases m with
    | nil => simp [atomsEq]
    | cons b m =>
      simp only [atomsEq, Bool.and_eq_true, atom_eq_iff, ih m, List.mem_cons, forall_eq_or_imp, List.map_cons,
        List.cons.injEq]
      tauto

theorem opsEq_iff (l m : List SymOp) :
    opsEq false l m = true ↔ (∀ a ∈ l, a.NoNan) ∧ (∀ a ∈ m, a.NoNan) ∧ l.map SymOp.content = m.map SymOp.content := by
  induction l generalizing m with
  | nil => cases m <;> simp [opsEq]
  | cons a l ih => cases m with
    | nil => simp [opsEq]
    | cons b m =>
      simp only [opsEq, SymOp.eq, Bool.and_eq_true, Mat.eq_iff, Vec.eq_iff, ih m, List.mem_cons, forall_eq_or_imp,
        List.map_cons, List.cons.injEq, SymOp.NoNan, SymOp.content, Prod.mk.injEq]
      tauto

/-- No member of the structure is NaN. -/
def Stru.NoNan (s : Stru) : Prop := (∀ a ∈ s.atoms, a.NoNan) ∧ s.base.NoNan ∧ ∀ o ∈ s.ops, o.NoNan

/-- **C73**: two finite structures compare equal exactly when they have the same atoms in the same order, without NaN. -/
theorem eqAtomic_iff (s t : Stru) : eqAtomic false s t = true ↔
    (∀ a ∈ s.atoms, a.NoNan) ∧ (∀ a ∈ t.atoms, a.NoNan) ∧ s.atoms.map Atom.content = t.atoms.map Atom.content :=
  atomsEq_iff _ _

/-- **C73**: two periodic structures compare equal exactly when they have the same atoms in the same order and the same lattice
base. -/
theorem eqPeriodic_iff (s t : Stru) : eqPeriodic false s t = true ↔
    ((∀ a ∈ s.atoms, a.NoNan) ∧ s.base.NoNan) ∧ ((∀ a ∈ t.atoms, a.NoNan) ∧ t.base.NoNan) ∧
    s.atoms.map Atom.content = t.atoms.map Atom.content ∧ s.base.vals = t.base.vals := by
  unfold eqPeriodic eqLattice
  rw [Bool.and_eq_true, eqAtomic_iff, Mat.eq_iff]
  tauto

/-- **C73**: two crystals compare equal exactly when they have the same atoms, lattice base and symmetry operations, in the same
order; the symmetry precision is not compared. -/
theorem eqCrystal_iff (s t : Stru) : eqCrystal false s t = true ↔
    s.NoNan ∧ t.NoNan ∧ s.atoms.map Atom.content = t.atoms.map Atom.content ∧ s.base.vals = t.base.vals ∧
    s.ops.map SymOp.content = t.ops.map SymOp.content := by
  unfold eqCrystal Stru.NoNan
  rw [Bool.false_or, Bool.and_eq_true, eqPeriodic_iff, opsEq_iff]
  tauto

theorem atomsEq_same (l : List Atom) : atomsEq true l l = true := by
  induction l with
  | nil => rfl
  | cons a l ih => simp [atomsEq, Atom.eq, ih]

/-- **C73**: every structure object equals itself, NaN or not; a copy of it compares equal unless it contains NaN. -/
theorem eq_self_copy (s : Stru) :
    (eqAtomic true s s = true ∧ eqPeriodic true s s = true ∧ eqCrystal true s s = true) ∧
    (s.NoNan → eqAtomic false s s = true ∧ eqPeriodic false s s = true) ∧
    (eqCrystal false s s = true ↔ s.NoNan) := by
  refine ⟨⟨atomsEq_same _, ?_, rfl⟩, ?_, ?_⟩
  · unfold eqPeriodic eqAtomic eqLattice Mat.eq; rw [atomsEq_same]; rfl
  · intro h
    exact ⟨(eqAtomic_iff s s).2 ⟨h.1, h.1, rfl⟩, (eqPeriodic_iff s s).2 ⟨⟨h.1, h.2.1⟩, ⟨h.1, h.2.1⟩, rfl, rfl⟩⟩
  · rw [eqCrystal_iff]; tauto

/-- **C73**: equality of structures is symmetric and transitive. -/
theorem eq_structures_equiv : (∀ s t, eqCrystal false s t = eqCrystal false t s) ∧
    (∀ s t u, eqCrystal false s t = true → eqCrystal false t u = true → eqCrystal false s u = true) ∧
    (∀ s t, eqPeriodic false s t = eqPeriodic false t s) ∧
    (∀ s t u, eqPeriodic false s t = true → eqPeriodic false t u = true → eqPeriodic false s u = true) ∧
    (∀ s t, eqAtomic false s t = eqAtomic false t s) ∧
    (∀ s t u, eqAtomic false s t = true → eqAtomic false t u = true → eqAtomic false s u = true) := by
  refine ⟨fun s t => ?_, fun s t u h1 h2 => ?_, fun s t => ?_, fun s t u h1 h2 => ?_, fun s t => ?_, fun s t u h1 h2 => ?_⟩
  · rw [Bool.eq_iff_iff, eqCrystal_iff, eqCrystal_iff]
    constructor <;> rintro ⟨a, b, c, d, e⟩ <;> exact ⟨b, a, c.symm, d.symm, e.symm⟩
  · rw [eqCrystal_iff] at *
    exact ⟨h1.1, h2.2.1, h1.2.2.1.trans h2.2.2.1, h1.2.2.2.1.trans h2.2.2.2.1, h1.2.2.2.2.trans h2.2.2.2.2⟩
  · rw [Bool.eq_iff_iff, eqPeriodic_iff, eqPeriodic_iff]
    constructor <;> rintro ⟨a, b, c, d⟩ <;> exact ⟨b, a, c.symm, d.symm⟩
  · rw [eqPeriodic_iff] at *
    exact ⟨h1.1, h2.2.1, h1.2.2.1.trans h2.2.2.1, h1.2.2.2.trans h2.2.2.2⟩
  · rw [Bool.eq_iff_iff, eqAtomic_iff, eqAtomic_iff]
    constructor <;> rintro ⟨a, b, c⟩ <;> exact ⟨b, a, c.symm⟩
  · rw [eqAtomic_iff] at *
    exact ⟨h1.1, h2.2.1, h1.2.2.trans h2.2.2⟩

/-! ### Equal structures have equal bonds -/
open Verif.R3 Verif.Lattice Verif.BondGen

/-- The real number of a finite `double` (0 for the others). -/
noncomputable def Fl.real : Fl → ℝ
  | .fin x _ => (x : ℝ)
  | _ => 0

noncomputable def Vec.real (v : Vec) : V3 := ⟨v.x.real, v.y.real, v.z.real⟩
noncomputable def Mat.real (m : Mat) : M3 := ⟨m.r0.real, m.r1.real, m.r2.real⟩

/-- The structure as the models of the calculators see it (`Verif.Crystal`), with the lattice object `L`. -/
noncomputable def Stru.crystal (s : Stru) (L : Lat) : Crystal.Crys :=
  ⟨s.atoms.map fun a => ⟨a.xyz.real, a.uij.real⟩, L, s.ops.map fun o => ⟨o.R.real, o.t.real⟩, s.precision.real, false, []⟩

theorem real_of_val (x y : Fl) (hx : x.isNan = false) (hy : y.isNan = false) (h : x.val = y.val) : x.real = y.real := by
  cases x <;> cases y <;> simp_all [Fl.isNan, Fl.val, Fl.real]

theorem Vec.real_of_vals (u v : Vec) (hu : u.NoNan) (hv : v.NoNan) (h : u.vals = v.vals) : u.real = v.real := by
  simp only [Vec.vals, Vec.data, List.map_cons, List.map_nil, List.cons.injEq, and_true] at h
  simp only [Vec.NoNan, Vec.data, List.mem_cons, List.not_mem_nil, or_false, forall_eq_or_imp, forall_eq] at hu hv
  unfold Vec.real
  rw [real_of_val _ _ hu.1 hv.1 h.1, real_of_val _ _ hu.2.1 hv.2.1 h.2.1, real_of_val _ _ hu.2.2 hv.2.2 h.2.2]

theorem Mat.real_of_vals (a b : Mat) (ha : a.NoNan) (hb : b.NoNan) (h : a.vals = b.vals) : a.real = b.real := by
  have h0 : a.r0.vals = b.r0.vals ∧ a.r1.vals = b.r1.vals ∧ a.r2.vals = b.r2.vals := by
    simp only [Mat.vals, Mat.data, Vec.data, List.map_cons, List.map_nil, List.cons_append,
      List.nil_append, List.cons.injEq, and_true] at h
    simp only [Vec.vals, Vec.data, List.map_cons, List.map_nil, List.cons.injEq, and_true]
    tauto
  have n : ∀ m : Mat, m.NoNan → m.r0.NoNan ∧ m.r1.NoNan ∧ m.r2.NoNan := by
    intro m hm
    refine ⟨fun x hx => hm x ?_, fun x hx => hm x ?_, fun x hx => hm x ?_⟩ <;>
      · unfold Mat.data; simp only [List.mem_append]; tauto
  unfold Mat.real
  rw [Vec.real_of_vals _ _ (n a ha).1 (n b hb).1 h0.1, Vec.real_of_vals _ _ (n a ha).2.1 (n b hb).2.1 h0.2.1,
    Vec.real_of_vals _ _ (n a ha).2.2 (n b hb).2.2 h0.2.2]

theorem map_of_content {A B C : Type} (p : A → Prop) (f : A → B) (g : A → C)
    (h : ∀ x y, p x → p y → f x = f y → g x = g y) (l m : List A) (hl : ∀ x ∈ l, p x) (hm : ∀ x ∈ m, p x)
    (e : l.map f = m.map f) : l.map g = m.map g := by
  induction l generalizing m with
  | nil => cases m with
    | nil => rfl
    | cons _ _ => simp at e
  | cons a l ih => cases m with
    | nil => simp at e
    | cons b m =>
      simp only [List.map_cons, List.cons.injEq] at e
      simp only [List.map_cons, List.cons.injEq]
      exact ⟨h a b (hl a (by simp)) (hm b (by simp)) e.1,
        ih m (fun x hx => hl x (by simp [hx])) (fun x hx => hm x (by simp [hx])) e.2⟩

/-- **C73**: crystals that compare equal, with the same symmetry precision, are indistinguishable: the same atom types,
occupancies, anisotropy flags, site positions and tensors, the same multiplicities, and every bond generator visits the same
bonds in the same order.  `L` and `M` are the lattice objects of `s` and `t`. -/
theorem equal_crystals_same (s t : Stru) (L M : Lat) (hL : Reachable L) (hM : Reachable M)
    (bL : L.base = s.base.real) (bM : M.base = t.base.real) (heq : eqCrystal false s t = true)
    (hp : s.precision.real = t.precision.real) :
    s.crystal L = t.crystal M ∧
    s.atoms.map (fun a => (a.atomtype, a.occupancy.real, a.anisotropy)) =
      t.atoms.map (fun a => (a.atomtype, a.occupancy.real, a.anisotropy)) ∧
    (∀ i, (s.crystal L).siteMultiplicity i = (t.crystal M).siteMultiplicity i) ∧
    (∀ rmin rmax anchor sel old bonds, Crystal.CrystalBonds (s.crystal L) rmin rmax anchor sel old bonds ↔
      Crystal.CrystalBonds (t.crystal M) rmin rmax anchor sel old bonds) := by
  obtain ⟨⟨a1, a2, a3⟩, ⟨b1, b2, b3⟩, e1, e2, e3⟩ := (eqCrystal_iff s t).1 heq
  have hLM : L = M := (equal_lattices L M hL hM).1 (by
    show L.base = M.base
    rw [bL, bM]; exact Mat.real_of_vals _ _ a2 b2 e2)
  have h1 : s.crystal L = t.crystal M := by
    unfold Stru.crystal
    rw [hLM, hp]
    rw [map_of_content Atom.NoNan Atom.content (fun a => (⟨a.xyz.real, a.uij.real⟩ : Crystal.Site)) ?_ _ _ a1 b1 e1,
      map_of_content SymOp.NoNan SymOp.content (fun o => (⟨o.R.real, o.t.real⟩ : Crystal.SymOp)) ?_ _ _ a3 b3 e3]
    · intro x y hx hy hxy
      simp only [SymOp.content, Prod.mk.injEq] at hxy
      rw [Mat.real_of_vals _ _ hx.1 hy.1 hxy.1, Vec.real_of_vals _ _ hx.2 hy.2 hxy.2]
    · intro x y hx hy hxy
      simp only [Atom.content, Prod.mk.injEq] at hxy
      rw [Mat.real_of_vals _ _ hx.2.2 hy.2.2 hxy.2.2.2.2, Vec.real_of_vals _ _ hx.1 hy.1 hxy.2.1]
  refine ⟨h1, ?_, by rw [h1]; exact fun _ => rfl, by rw [h1]; intros; exact Iff.rfl⟩
  refine map_of_content Atom.NoNan Atom.content _ ?_ _ _ a1 b1 e1
  intro x y hx hy hxy
  simp only [Atom.content, Prod.mk.injEq] at hxy
  rw [hxy.1, real_of_val _ _ hx.2.1 hy.2.1 hxy.2.2.1, hxy.2.2.2.1]

/-- **C73**: periodic structures that compare equal have identical lattices, and the same positions, tensors, types, occupancies
and flags. -/
theorem equal_periodic_same (s t : Stru) (L M : Lat) (hL : Reachable L) (hM : Reachable M)
    (bL : L.base = s.base.real) (bM : M.base = t.base.real) (heq : eqPeriodic false s t = true) :
    L = M ∧ s.atoms.map (fun a => (a.atomtype, a.xyz.real, a.occupancy.real, a.anisotropy, a.uij.real)) =
      t.atoms.map (fun a => (a.atomtype, a.xyz.real, a.occupancy.real, a.anisotropy, a.uij.real)) := by
  obtain ⟨⟨a1, a2⟩, ⟨b1, b2⟩, e1, e2⟩ := (eqPeriodic_iff s t).1 heq
  refine ⟨(equal_lattices L M hL hM).1 (by
    show L.base = M.base
    rw [bL, bM]; exact Mat.real_of_vals _ _ a2 b2 e2), map_of_content Atom.NoNan Atom.content _ ?_ _ _ a1 b1 e1⟩
  intro x y hx hy hxy
  simp only [Atom.content, Prod.mk.injEq] at hxy
  rw [hxy.1, real_of_val _ _ hx.2.1 hy.2.1 hxy.2.2.1, hxy.2.2.2.1, Mat.real_of_vals _ _ hx.2.2 hy.2.2 hxy.2.2.2.2,
    Vec.real_of_vals _ _ hx.1 hy.1 hxy.2.1]

theorem expand_two_length (L : Lat) (eps : ℝ) (a0 : Crystal.Site) (op1 op2 : Crystal.SymOp) :
    (Crystal.expandLatticeAtom L eps [op1, op2] a0).length =
      open Classical in if Crystal.samePos L eps (Crystal.image a0 op1) (Crystal.image a0 op2) then 1 else 2 := by
  unfold Crystal.expandLatticeAtom Crystal.expandLoop
  simp only [List.isEmpty_cons, Bool.false_eq_true, if_false, List.length_map, List.foldl_cons, List.foldl_nil]
  have s1 : Crystal.expandStep L eps a0 [] op1 = [⟨⟨Crystal.image a0 op1, M3.mul op1.R (M3.mul a0.uij (M3.trans op1.R))⟩,
      V3.add V3.zero (ucvFractional (Crystal.image a0 op1)), 1⟩] := by
    unfold Crystal.expandStep Crystal.findEqualPosition
    simp only [List.findIdx?_nil, List.nil_append]
  rw [s1]
  unfold Crystal.expandStep Crystal.findEqualPosition
  dsimp only
  rw [List.findIdx?_cons]
  by_cases hs : Crystal.samePos L eps (Crystal.image a0 op1) (Crystal.image a0 op2) <;> simp [hs]

/-- A unit cubic crystal with an atom at (1/10, 0, 0), the inversion, and symmetry precision `p`. -/
def exCry (p : Rat) : Stru :=
  ⟨[exAt (.fin (1 / 10) false)],
    ⟨⟨.fin 1 false, .fin 0 false, .fin 0 false⟩, ⟨.fin 0 false, .fin 1 false, .fin 0 false⟩,
      ⟨.fin 0 false, .fin 0 false, .fin 1 false⟩⟩,
    [⟨⟨⟨.fin 1 false, .fin 0 false, .fin 0 false⟩, ⟨.fin 0 false, .fin 1 false, .fin 0 false⟩,
        ⟨.fin 0 false, .fin 0 false, .fin 1 false⟩⟩, ⟨.fin 0 false, .fin 0 false, .fin 0 false⟩⟩,
      ⟨⟨⟨.fin (-1) false, .fin 0 false, .fin 0 false⟩, ⟨.fin 0 false, .fin (-1) false, .fin 0 false⟩,
        ⟨.fin 0 false, .fin 0 false, .fin (-1) false⟩⟩, ⟨.fin 0 false, .fin 0 false, .fin 0 false⟩⟩],
    .fin p false⟩

/-- Equality of crystals does not look at the symmetry precision: two crystals with one lattice object compare equal although
one has a site of multiplicity 1 and the other of multiplicity 2. -/
theorem eq_ignores_precision_bug (L0 : Lat) :
    let L := Crystal.unitCubic L0
    L.base = (exCry 1).base.real ∧ eqCrystal false (exCry (1 / 4)) (exCry (1 / 100)) = true ∧
    ((exCry (1 / 4)).crystal L).siteMultiplicity 0 = 1 ∧ ((exCry (1 / 100)).crystal L).siteMultiplicity 0 = 2 := by
  have mult : ∀ p : Rat, ((exCry p).crystal (Crystal.unitCubic L0)).siteMultiplicity 0 =
      open Classical in if (1 / 5 : ℝ) ≤ (p : ℝ) then 1 else 2 := by
    intro p
    have e1 : ((exCry p).crystal (Crystal.unitCubic L0)).siteMultiplicity 0 =
        (Crystal.symOf (Crystal.unitCubic L0) (p : ℝ)
          [⟨(⟨⟨1, 0, 0⟩, ⟨0, 1, 0⟩, ⟨0, 0, 1⟩⟩ : M3), ⟨0, 0, 0⟩⟩,
           ⟨(⟨⟨-1, 0, 0⟩, ⟨0, -1, 0⟩, ⟨0, 0, -1⟩⟩ : M3), ⟨0, 0, 0⟩⟩] ⟨⟨1 / 10, 0, 0⟩, ⟨⟨0, 0, 0⟩, ⟨0, 0, 0⟩, ⟨0, 0, 0⟩⟩⟩).length := by
      unfold Crystal.Crys.siteMultiplicity Crystal.Crys.refresh Crystal.Crys.isSymmetryCached Stru.crystal
      simp [Crystal.Crys.updateSymmetryPositions, exCry, exAt, Vec.real, Mat.real, Fl.real]
    rw [e1]
    unfold Crystal.symOf
    rw [List.length_map, expand_two_length]
    unfold Crystal.toFractional Crystal.image
    simp only [Crystal.unitCubic_frac]
    congr 1
    rw [eq_iff_iff]
    unfold Crystal.samePos
    rw [Crystal.unitCubic_norm]
    simp only [Crystal.unitCubic_frac, M3.mulVec, V3.dot, V3.add, V3.sub, Crystal.wrapDiff]
    norm_num
    have c0 : Crystal.cRound 0 = 0 := Crystal.cRound_unique 0 0 (by norm_num)
    have c1 : Crystal.cRound (1 / 5) = 0 := Crystal.cRound_unique _ 0 (by norm_num)
    rw [c0, c1]
    unfold V3.norm V3.dot
    norm_num
    rw [show (25 : ℝ) = 5 ^ 2 by norm_num, Real.sqrt_sq (by norm_num), one_div]
  refine ⟨?_, by decide +kernel, ?_, ?_⟩
  · rw [Crystal.unitCubic_base]
    simp [exCry, Mat.real, Vec.real, Fl.real, M3.one]
  · rw [mult, if_pos (by norm_num)]
  · rw [mult, if_neg (by norm_num)]

/-- Non-vacuity of `equal_crystals_same`: `-0.0` instead of `0.0` in a position. -/
example (L0 : Lat) : Reachable (Crystal.unitCubic L0) ∧ (Crystal.unitCubic L0).base = (exCry 1).base.real ∧
    eqCrystal false (exCry 1) { exCry 1 with
      atoms := [{ exAt (.fin (1 / 10) false) with
        xyz := ⟨.fin (1 / 10) false, .fin 0 true, .fin 0 false⟩ }] } = true :=
  ⟨Crystal.unitCubic_reachable L0, (eq_ignores_precision_bug L0).1, by decide +kernel⟩

end Verif.Equality
