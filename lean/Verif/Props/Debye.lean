import Verif.Lemmas.Debye
import Verif.Props.Evaluator
import Mathlib.Tactic.Linarith
import Mathlib.Tactic.Positivity
import Mathlib.Tactic.FieldSimp
import Mathlib.Analysis.Real.Pi.Bounds
set_option linter.unusedSectionVars false
/-!
The Debye sum: C44 (scattering factors and occupancies) and C56 (the value is Debye's formula up to
the precision, the normalisation of F(Q)).
-/
namespace Verif.Debye
open Verif.PDFGrid Verif.Eval

/-! ## Specification -/

/-- A configuration the validated setters can produce (see C45). -/
structure QPar.Ok (p : QPar) : Prop where
  qmin : 0 ≤ p.qmin
  qmax : 0 ≤ p.qmax
  qstep : eps < p.qstep

/-- The Debye term of a bond at Q = `q` for the scattering factors `f0`, `f1` of its ends:
f0 f1 exp(-σ²q²/2) sin(q r) / r with σ = fwhm / (2 √(2 log 2)), for every equivalent bond. -/
noncomputable def debyeTerm (f0 f1 : ℝ) (b : Bond) (q : ℝ) : ℝ :=
  (b.mult : ℝ) * (f0 * f1 * Real.exp (-((b.fwhm / (2 * Real.sqrt (2 * Real.log 2))) ^ 2 * q ^ 2 / 2)) *
    (Real.sin (q * b.dist) / b.dist))

/-- Bonds shorter than the tolerance of the library (an atom with itself) do not count. -/
noncomputable def debyeBond (f0 f1 : ℝ) (b : Bond) (q : ℝ) : ℝ :=
  if |b.dist| ≤ eps then 0 else debyeTerm f0 f1 b q

/-- Sites of one type have one occupancy. -/
def UniformOccupancy (sites : List Site) : Prop :=
  ∀ s ∈ sites, ∀ t ∈ sites, s.typ = t.typ → s.occ = t.occ

/-! ## The cache -/

theorem eps_pos : (0 : ℝ) < eps := by unfold eps; positivity

theorem QPar.Ok.lo_nonneg {p : QPar} (h : p.Ok) : 0 ≤ p.lo := by
  have hq : (0 : ℝ) < p.qstep := lt_trans eps_pos h.qstep
  unfold QPar.lo qminSteps
  rw [if_neg (not_le.2 hq)]
  have hc : 0 ≤ ⌈p.qmin / p.qstep⌉ := Int.ceil_nonneg (div_nonneg h.qmin hq.le)
  simp only
  split
  · rename_i he
    rcases hc.lt_or_eq with h1 | h1
    · omega
    · exfalso
      rw [← h1] at he
      have : p.qmin - ((0 - 1 : ℤ) : ℝ) * p.qstep = p.qmin + p.qstep := by push_cast; ring
      rw [this, abs_of_nonneg (by linarith [h.qmin])] at he
      linarith [h.qmin, h.qstep]
  · exact hc

/-- The cached factor of a site is the one computed for the first site of its type. -/
theorem sf_first (p : QPar) (hp : p.Ok) (sfSite : Nat → ℝ → ℝ) (sites : List Site) (i : Nat) (s : Site)
    (hi : sites[i]? = some s) (k : Nat) (hk : (k : ℤ) < p.hi) :
    (cacheOf p sfSite sites).sfSiteAtkQ i k =
      some (if p.lo ≤ (k : ℤ) then sfSite (firstOf sites s.typ) (p.qstep * (k : ℝ)) else 0) := by
  obtain ⟨m, h⟩ := cacheOf_inv p sfSite sites
  obtain ⟨tp, h1, h2⟩ := h.typ i s hi
  obtain ⟨h3, _⟩ := h.vals _ _ h2
  unfold Cache.sfSiteAtkQ
  rw [h1, Option.bind_some, h3, Option.bind_some, if_pos (by omega), Int.toNat_natCast]
  exact sfArray_get p hp.lo_nonneg _ k hk

theorem firstOf_spec (sites : List Site) (i : Nat) (s : Site) (hi : sites[i]? = some s) :
    ∃ t, sites[firstOf sites s.typ]? = some t ∧ t.typ = s.typ ∧ t ∈ sites := by
  have hex : ∃ x ∈ sites, (x.typ == s.typ) = true :=
    ⟨s, List.mem_of_getElem? hi, by simp⟩
  have hlt : firstOf sites s.typ < sites.length := by
    unfold firstOf; rw [List.findIdx_lt_length]; exact hex
  refine ⟨sites[firstOf sites s.typ], List.getElem?_eq_getElem hlt, ?_, List.getElem_mem hlt⟩
  exact eq_of_beq (List.findIdx_getElem (w := hlt))

/-- **C44** (partial): in the Debye PDF the factor of every site is the factor of its type times the
occupancy of this very site, provided that sites of one type have one occupancy.  Missing: types that
occur with different occupancies, where it is false (next theorem). -/
theorem sf_occupancy_partial (p : QPar) (hp : p.Ok) (lookup : String → ℝ → ℝ) (sites : List Site)
    (hu : UniformOccupancy sites) (i : Nat) (s : Site) (hi : sites[i]? = some s) (k : Nat)
    (hk : (k : ℤ) < p.hi) :
    (cacheOf p (sfPDF lookup sites) sites).sfSiteAtkQ i k =
      some (if p.lo ≤ (k : ℤ) then lookup s.typ (p.qstep * (k : ℝ)) * s.occ else 0) := by
  rw [sf_first p hp _ sites i s hi k hk]
  obtain ⟨t, h1, h2, h3⟩ := firstOf_spec sites i s hi
  unfold sfPDF
  rw [h1]
  simp only
  rw [h2, hu t h3 s (List.mem_of_getElem? hi) h2]

/-- **C44 is false of the code**: every site takes the occupancy of the first site of its type.  For any
factors and two sites of one type with different occupancies the second one counts with the
occupancy of the first. -/
theorem sf_occupancy_bug (p : QPar) (hp : p.Ok) (lookup : String → ℝ → ℝ) (t : String) (o0 o1 : ℝ)
    (m0 m1 : ℕ) (k : Nat) (hlo : p.lo ≤ (k : ℤ)) (hk : (k : ℤ) < p.hi) :
    (cacheOf p (sfPDF lookup [⟨t, o0, m0⟩, ⟨t, o1, m1⟩]) [⟨t, o0, m0⟩, ⟨t, o1, m1⟩]).sfSiteAtkQ 1 k =
      some (lookup t (p.qstep * (k : ℝ)) * o0) := by
  rw [sf_first p hp _ _ 1 ⟨t, o1, m1⟩ rfl k hk, if_pos hlo]
  have : firstOf [⟨t, o0, m0⟩, ⟨t, o1, m1⟩] t = 0 := by simp [firstOf, List.findIdx_cons]
  rw [this]; rfl

/-- In the plain Debye sum every factor is 1. -/
theorem sf_base (p : QPar) (hp : p.Ok) (sites : List Site) (i : Nat) (hi : i < sites.length) (k : Nat)
    (hk : (k : ℤ) < p.hi) :
    (cacheOf p sfBase sites).sfSiteAtkQ i k = some (if p.lo ≤ (k : ℤ) then 1 else 0) := by
  rw [sf_first p hp _ sites i sites[i] (List.getElem?_eq_getElem hi) k hk]; rfl

/-! ## Sums -/

/-- A fold of array updates that add `h x k` at index `k`. -/
theorem foldl_pointwise {ι : Type} (n : Nat) (F : List ℝ → ι → List ℝ) (h : ι → Nat → ℝ) (l : List ι)
    (hF : ∀ x ∈ l, ∀ v : List ℝ, v.length = n → (F v x).length = n ∧
      ∀ k, k < n → (F v x).getD k 0 = v.getD k 0 + h x k) :
    ∀ v : List ℝ, v.length = n → (l.foldl F v).length = n ∧
      ∀ k, k < n → (l.foldl F v).getD k 0 = v.getD k 0 + (l.map fun x => h x k).sum := by
  induction l with
  | nil => intro v hv; exact ⟨hv, fun k _ => by simp⟩
  | cons x l ih =>
    intro v hv
    obtain ⟨h1, h2⟩ := hF x (by simp) v hv
    obtain ⟨h3, h4⟩ := ih (fun y hy => hF y (by simp [hy])) (F v x) h1
    refine ⟨h3, fun k hk => ?_⟩
    rw [List.foldl_cons, h4 k hk, h2 k hk, List.map_cons, List.sum_cons, add_assoc]

theorem getD_replicate (n k : Nat) : (List.replicate n (0 : ℝ)).getD k 0 = 0 := by
  rw [List.getD_eq_getElem?_getD, List.getElem?_replicate]; split <;> rfl

/-- The multiplicity of a type is the sum over its sites. -/
theorem typeMultiplicities_get (c : Cache) (sites : List Site) (tp : Nat) (htp : tp < c.sftype.length) :
    (typeMultiplicities c sites).getD tp 0 =
      ((sites.zipIdx).map fun si => if c.typeofsite.getD si.2 0 = tp then si.1.mult else 0).sum := by
  unfold typeMultiplicities
  have key : ∀ (l : List (Site × Nat)) (v : List ℕ), tp < v.length →
      (l.foldl (fun a si => a.modify (c.typeofsite.getD si.2 0) (· + si.1.mult)) v).getD tp 0 =
        v.getD tp 0 + (l.map fun si => if c.typeofsite.getD si.2 0 = tp then si.1.mult else 0).sum := by
    intro l
    induction l with
    | nil => intro v _; simp
    | cons x l ih =>
      intro v hv
      rw [List.foldl_cons, ih _ (by rw [List.length_modify]; exact hv), List.map_cons, List.sum_cons, ← Nat.add_assoc]
      congr 1
      generalize c.typeofsite.getD x.2 0 = y
      rw [List.getD_eq_getElem?_getD, List.getD_eq_getElem?_getD, List.getElem?_modify,
        List.getElem?_eq_getElem hv]
      by_cases h : y = tp
      · rw [if_pos h]; simp [h]
      · rw [if_neg h]; simp [h]
  rw [key _ _ (by simpa using htp)]
  rw [List.getD_eq_getElem?_getD, List.getElem?_replicate, if_pos htp]; simp

/-- The cached factors and type indices are in range. -/
theorem cache_inRange (p : QPar) (sfSite : Nat → ℝ → ℝ) (sites : List Site) (i : Nat) (hi : i < sites.length) :
    ∃ tp, (cacheOf p sfSite sites).typeofsite[i]? = some tp ∧ tp < (cacheOf p sfSite sites).sftype.length := by
  obtain ⟨m, h⟩ := cacheOf_inv p sfSite sites
  obtain ⟨tp, h1, h2⟩ := h.typ i sites[i] (List.getElem?_eq_getElem hi)
  exact ⟨tp, h1, (List.getElem?_eq_some_iff.1 (h.vals _ _ h2).1).1⟩

theorem sum_ite_range (n j : Nat) (g : Nat → ℝ) (hj : j < n) :
    ((List.range n).map fun t => if j = t then g t else 0).sum = g j := by
  induction n with
  | zero => omega
  | succ n ih =>
    rw [List.range_succ, List.map_append, List.sum_append]
    simp only [List.map_cons, List.map_nil, List.sum_cons, List.sum_nil, add_zero]
    by_cases h : j = n
    · subst h
      rw [if_pos rfl]
      have : ((List.range j).map fun t => if j = t then g t else 0).sum = 0 := by
        apply List.sum_eq_zero
        intro x hx
        obtain ⟨t, ht, rfl⟩ := List.mem_map.1 hx
        rw [if_neg (by have := List.mem_range.1 ht; omega)]
      rw [this, zero_add]
    · rw [if_neg h, add_zero, ih (by omega)]

theorem foldl_add_eq {ι : Type} (l : List ι) (g : ι → ℝ) (r : ℝ) :
    l.foldl (fun t s => t + g s) r = r + (l.map g).sum := by
  induction l generalizing r with
  | nil => simp
  | cons a l ih => rw [List.foldl_cons, ih, List.map_cons, List.sum_cons, add_assoc]

theorem totalOccupancy_eq (sites : List Site) :
    totalOccupancy sites = (sites.map fun s => s.occ * (s.mult : ℝ)).sum := by
  unfold totalOccupancy
  rw [foldl_add_eq sites (fun s => s.occ * (s.mult : ℝ)), zero_add]

theorem natCast_list_sum (l : List ℕ) : ((l.sum : ℕ) : ℝ) = (l.map fun x : ℕ => (x : ℝ)).sum := by
  induction l with
  | nil => simp
  | cons a l ih => simp [ih]

theorem sum_comm_list {α β : Type} (l : List α) (m : List β) (g : α → β → ℝ) :
    (l.map fun a => (m.map fun b => g a b).sum).sum = (m.map fun b => (l.map fun a => g a b).sum).sum := by
  induction l with
  | nil => simp
  | cons a l ih =>
    rw [List.map_cons, List.sum_cons, ih]
    clear ih
    induction m with
    | nil => simp
    | cons b m ihm =>
      simp only [List.map_cons, List.sum_cons] at ihm ⊢
      linarith

/-- The stored average at step `k` is the sum over all sites of factor times multiplicity, divided by the
total occupancy. -/
theorem sfAverage_get (p : QPar) (hp : p.Ok) (sfSite : Nat → ℝ → ℝ) (sites : List Site) (k : Nat)
    (hlo : p.lo ≤ (k : ℤ)) (hk : (k : ℤ) < p.hi) :
    (sfAverage p (cacheOf p sfSite sites) sites)[k]? =
      some ((if totalOccupancy sites > 0 + eps then 1 / totalOccupancy sites else 1) *
        ((sites.zipIdx).map fun si => (cacheOf p sfSite sites).sf si.2 k * (si.1.mult : ℝ)).sum) := by
  generalize hc : cacheOf p sfSite sites = c
  have hrange : ∀ i, i < sites.length → ∃ tp, c.typeofsite[i]? = some tp ∧ tp < c.sftype.length := by
    intro i hi; rw [← hc]; exact cache_inRange p sfSite sites i hi
  unfold sfAverage
  simp only
  generalize (if totalOccupancy sites > 0 + eps then 1 / totalOccupancy sites else 1) = tosc
  have hn : k < p.hi.toNat := by omega
  obtain ⟨h1, h2⟩ := foldl_pointwise p.hi.toNat (fun (sfak : List ℝ) (tp : Nat) =>
      (intRange p.lo p.hi).foldl (fun sfak (kq : ℤ) => sfak.modify kq.toNat (· +
        (c.sftype.getD tp []).getD kq.toNat 0 * ((typeMultiplicities c sites).getD tp 0 : ℝ))) sfak)
    (fun tp k => if p.lo ≤ (k : ℤ) then (c.sftype.getD tp []).getD k 0 *
      ((typeMultiplicities c sites).getD tp 0 : ℝ) else 0) (List.range c.sftype.length)
    (by
      intro tp _ v hv
      refine ⟨by rw [length_foldl_modify (fun kq : ℤ => (c.sftype.getD tp []).getD kq.toNat 0 *
        ((typeMultiplicities c sites).getD tp 0 : ℝ))]; exact hv, ?_⟩
      intro k hk
      by_cases hle : p.lo ≤ p.hi
      · rw [intRange_add, getD_foldl_modify (fun kq : ℤ => (c.sftype.getD tp []).getD kq.toNat 0 *
          ((typeMultiplicities c sites).getD tp 0 : ℝ)) p.lo hp.lo_nonneg _ v k (by rw [hv]; omega)]
        congr 1
        by_cases h : p.lo ≤ (k : ℤ)
        · rw [if_pos h, if_pos (by omega), Int.toNat_natCast]
        · rw [if_neg h, if_neg (by omega)]
      · rw [intRange_empty (by omega), List.foldl_nil, if_neg (by omega), add_zero])
    (List.replicate p.hi.toNat 0) (by simp)
  have h3 := h2 k hn
  generalize hS : (List.range c.sftype.length).foldl (fun (sfak : List ℝ) (tp : Nat) =>
      (intRange p.lo p.hi).foldl (fun sfak (kq : ℤ) => sfak.modify kq.toNat (· +
        (c.sftype.getD tp []).getD kq.toNat 0 * ((typeMultiplicities c sites).getD tp 0 : ℝ))) sfak)
      (List.replicate p.hi.toNat 0) = S at h1 h3
  rw [List.getElem?_map, List.getElem?_eq_getElem (by rw [h1]; exact hn), Option.map_some]
  have e : S[k]'(by rw [h1]; exact hn) = S.getD k 0 := by
    rw [List.getD_eq_getElem?_getD, List.getElem?_eq_getElem (by rw [h1]; exact hn)]; rfl
  rw [e, h3, getD_replicate, zero_add]
  congr 2
  simp only [if_pos hlo]
  -- exchange the sums over types and sites
  have step1 : ((List.range c.sftype.length).map fun tp => (c.sftype.getD tp []).getD k 0 *
      ((typeMultiplicities c sites).getD tp 0 : ℝ)).sum =
      ((List.range c.sftype.length).map fun tp => ((sites.zipIdx).map fun si =>
        if c.typeofsite.getD si.2 0 = tp then (c.sftype.getD tp []).getD k 0 * (si.1.mult : ℝ) else 0).sum).sum := by
    congr 1
    apply List.map_congr_left
    intro tp htp
    rw [typeMultiplicities_get c sites tp (List.mem_range.1 htp), natCast_list_sum, List.map_map,
      mul_comm, Overlap.list_sum_mul]
    congr 1
    apply List.map_congr_left
    intro si _
    simp only [Function.comp]
    split
    · rw [mul_comm]
    · simp
  rw [step1, sum_comm_list]
  congr 1
  apply List.map_congr_left
  intro si hsi
  have hlt : si.2 < sites.length := by
    have := List.mem_zipIdx hsi
    omega
  obtain ⟨tp, ht1, ht2⟩ := hrange si.2 hlt
  have htp : c.typeofsite.getD si.2 0 = tp := by rw [List.getD_eq_getElem?_getD, ht1]; rfl
  rw [sum_ite_range _ _ (fun tp => (c.sftype.getD tp []).getD k 0 * (si.1.mult : ℝ)) (by rw [htp]; exact ht2), htp]
  congr 1
  unfold Cache.sf Cache.sfSiteAtkQ
  rw [ht1, Option.bind_some, List.getElem?_eq_getElem ht2, Option.bind_some, if_pos (by omega),
    Int.toNat_natCast, List.getD_eq_getElem?_getD, List.getD_eq_getElem?_getD, List.getElem?_eq_getElem ht2]
  rfl

/-! ## Pair contributions -/

open Classical in
/-- What `addPairContribution` adds at Q step `k`. -/
noncomputable def added (p : QPar) (sf0 sf1 : ℤ → ℝ) (sc : ℤ) (b : Bond) (k : Nat) : ℝ :=
  if ¬ |b.dist| ≤ eps ∧ p.lo ≤ (k : ℤ) ∧
      ∀ j : ℤ, p.lo ≤ j → j ≤ (k : ℤ) → p.prec < |sineScale p b (sc * b.mult) sf0 sf1 j| then
    sineScale p b (sc * b.mult) sf0 sf1 k * Real.sin ((k : ℝ) * p.qstep * b.dist) else 0

open Classical in
theorem addPair_get (p : QPar) (hp : p.Ok) (sf0 sf1 : ℤ → ℝ) (sc : ℤ) (b : Bond) (v : List ℝ)
    (hv : v.length = p.hi.toNat) :
    (addPair p sf0 sf1 sc b v).length = p.hi.toNat ∧
    ∀ k, k < p.hi.toNat → (addPair p sf0 sf1 sc b v).getD k 0 = v.getD k 0 + added p sf0 sf1 sc b k := by
  unfold addPair added
  rw [zero_sub, abs_neg]
  by_cases hd : |b.dist| ≤ eps
  · rw [if_pos hd]
    refine ⟨hv, fun k _ => ?_⟩
    rw [if_neg (fun h => h.1 hd), add_zero]
  · rw [if_neg hd]
    refine ⟨by rw [qLoop_length]; exact hv, fun k hk => ?_⟩
    rw [intRange_add, qLoop_get p b _ _ _ v k hp.lo_nonneg (by rw [hv]; exact hk)]
    congr 1
    apply if_congr _ rfl rfl
    constructor
    · rintro ⟨h1, _, h3⟩; exact ⟨hd, h1, h3⟩
    · rintro ⟨_, h1, h3⟩; exact ⟨h1, by omega, h3⟩

theorem sineScale_eq (p : QPar) (b : Bond) (sc : ℤ) (sf0 sf1 : ℤ → ℝ) (k : Nat) :
    sineScale p b (sc * b.mult) sf0 sf1 k * Real.sin ((k : ℝ) * p.qstep * b.dist) =
      (sc : ℝ) * debyeTerm (sf0 k) (sf1 k) b ((k : ℝ) * p.qstep) := by
  unfold sineScale debyeTerm dwSigma
  have e : (-0.5 : ℝ) * (1 / (2 * Real.sqrt (2 * Real.log 2)) * b.fwhm * (((k : ℤ) : ℝ) * p.qstep)) ^ 2 =
      -((b.fwhm / (2 * Real.sqrt (2 * Real.log 2))) ^ 2 * ((k : ℝ) * p.qstep) ^ 2 / 2) := by
    push_cast; ring
  rw [e]
  push_cast
  ring

/-- The factor part of the sine scale decreases with Q when the product of the site factors does. -/
theorem sineScale_antitone (p : QPar) (hp : p.Ok) (b : Bond) (sm : ℤ) (sf0 sf1 : ℤ → ℝ) (j k : ℤ)
    (h0 : 0 ≤ j) (hjk : j ≤ k) (hm : |sf0 k * sf1 k| ≤ |sf0 j * sf1 j|) :
    |sineScale p b sm sf0 sf1 k| ≤ |sineScale p b sm sf0 sf1 j| := by
  have hq : (0 : ℝ) < p.qstep := lt_trans eps_pos hp.qstep
  have expand : ∀ i : ℤ, |sineScale p b sm sf0 sf1 i| = (|(sm : ℝ)| / |b.dist|) *
      (Real.exp (-0.5 * (dwSigma b.fwhm * ((i : ℝ) * p.qstep)) ^ 2) * |sf0 i * sf1 i|) := by
    intro i
    unfold sineScale
    rw [abs_div, abs_mul, abs_mul, abs_mul, Real.abs_exp, abs_mul]
    ring
  rw [expand, expand]
  apply mul_le_mul_of_nonneg_left _ (by positivity)
  apply mul_le_mul _ hm (abs_nonneg _) (Real.exp_pos _).le
  apply Real.exp_le_exp.2
  have h1 : (0 : ℝ) ≤ (j : ℝ) := by exact_mod_cast h0
  have h2 : (j : ℝ) ≤ (k : ℝ) := by exact_mod_cast hjk
  have h3 : (dwSigma b.fwhm * ((j : ℝ) * p.qstep)) ^ 2 ≤ (dwSigma b.fwhm * ((k : ℝ) * p.qstep)) ^ 2 := by
    rw [mul_pow (dwSigma b.fwhm), mul_pow (dwSigma b.fwhm)]
    apply mul_le_mul_of_nonneg_left _ (sq_nonneg _)
    apply pow_le_pow_left₀ (by positivity)
    exact mul_le_mul_of_nonneg_right h2 hq.le
  linarith

/-- One bond: what is added differs from its Debye term by at most the precision, when the product of the
site factors does not grow with Q; with a negative precision it is the term. -/
theorem added_error (p : QPar) (hp : p.Ok) (sf0 sf1 : ℤ → ℝ) (sc : ℤ) (b : Bond) (k : Nat)
    (hlo : p.lo ≤ (k : ℤ)) :
    (0 ≤ p.prec → (∀ j : ℤ, p.lo ≤ j → j ≤ k → |sf0 k * sf1 k| ≤ |sf0 j * sf1 j|) →
      |added p sf0 sf1 sc b k - (sc : ℝ) * debyeBond (sf0 k) (sf1 k) b ((k : ℝ) * p.qstep)| ≤ p.prec) ∧
    (p.prec < 0 → added p sf0 sf1 sc b k = (sc : ℝ) * debyeBond (sf0 k) (sf1 k) b ((k : ℝ) * p.qstep)) := by
  unfold added debyeBond
  by_cases hd : |b.dist| ≤ eps
  · rw [if_neg (fun h => h.1 hd), if_pos hd, mul_zero, sub_zero, abs_zero]
    exact ⟨fun h _ => h, fun _ => rfl⟩
  · rw [if_neg hd]
    refine ⟨fun hpr hm => ?_, fun hpr => ?_⟩
    · split
      · rw [sineScale_eq, sub_self, abs_zero]; exact hpr
      · rename_i hn
        have : ∃ j : ℤ, p.lo ≤ j ∧ j ≤ (k : ℤ) ∧ |sineScale p b (sc * b.mult) sf0 sf1 j| ≤ p.prec := by
          by_contra hcon
          apply hn
          refine ⟨hd, hlo, fun j h1 h2 => ?_⟩
          by_contra h3
          exact hcon ⟨j, h1, h2, not_lt.1 h3⟩
        obtain ⟨j, h1, h2, h3⟩ := this
        rw [← sineScale_eq, zero_sub, abs_neg, abs_mul]
        have h4 := sineScale_antitone p hp b (sc * b.mult) sf0 sf1 j k (le_trans hp.lo_nonneg h1) h2 (hm j h1 h2)
        calc |sineScale p b (sc * b.mult) sf0 sf1 k| * |Real.sin ((k : ℝ) * p.qstep * b.dist)|
            ≤ |sineScale p b (sc * b.mult) sf0 sf1 k| * 1 :=
              mul_le_mul_of_nonneg_left (Real.abs_sin_le_one _) (abs_nonneg _)
          _ ≤ p.prec := by rw [mul_one]; exact le_trans h4 h3
    · rw [if_pos, sineScale_eq]
      exact ⟨hd, hlo, fun j _ _ => lt_of_lt_of_le hpr (abs_nonneg _)⟩

/-- The value after any sequence of contributions. -/
theorem value_get (p : QPar) (hp : p.Ok) (c : Cache) (tr : List (Contrib Bond)) :
    (value p c tr).length = p.hi.toNat ∧ ∀ k, k < p.hi.toNat →
      (value p c tr).getD k 0 = (tr.map fun t => added p (c.sf t.i0) (c.sf t.i1) t.scale t.bond k).sum := by
  unfold value addTrace
  obtain ⟨h1, h2⟩ := foldl_pointwise p.hi.toNat
    (fun v (t : Contrib Bond) => addPair p (c.sf t.i0) (c.sf t.i1) t.scale t.bond v)
    (fun t k => added p (c.sf t.i0) (c.sf t.i1) t.scale t.bond k) tr
    (fun t _ v hv => addPair_get p hp _ _ _ _ v hv) (List.replicate p.hi.toNat 0) (by simp)
  refine ⟨h1, fun k hk => ?_⟩
  rw [h2 k hk, getD_replicate, zero_add]

theorem sum_error {ι : Type} (l : List ι) (f g : ι → ℝ) (e : ℝ) (h : ∀ x ∈ l, |f x - g x| ≤ e) :
    |(l.map f).sum - (l.map g).sum| ≤ e * l.length := by
  induction l with
  | nil => simp
  | cons a l ih =>
    have h1 := h a (by simp)
    have h2 := ih (fun x hx => h x (by simp [hx]))
    simp only [List.map_cons, List.sum_cons, List.length_cons]
    push_cast
    have e1 : f a + (l.map f).sum - (g a + (l.map g).sum) = (f a - g a) + ((l.map f).sum - (l.map g).sum) := by ring
    rw [e1]
    calc _ ≤ |f a - g a| + |(l.map f).sum - (l.map g).sum| := abs_add_le _ _
      _ ≤ e + e * l.length := add_le_add h1 h2
      _ = _ := by ring

theorem traceSum_real (f : Nat → Nat → Bond → ℝ) (tr : List (Contrib Bond)) :
    traceSum f tr = (tr.map fun t => (t.scale : ℝ) * f t.i0 t.i1 t.bond).sum := by
  unfold traceSum
  congr 1
  apply List.map_congr_left
  intro t _
  rw [zsmul_eq_mul]

/-! ## C56: the Debye formula -/

/-- Debye's double sum at Q = `q` over all ordered pairs of sites and the bonds `c i j` between them that
pass the mask, with site factors `f i`. -/
noncomputable def debyeSum (f : Nat → ℝ) (c : Nat → Nat → List Bond) (use : Nat → Nat → Bool) (cnt : Nat)
    (q : ℝ) : ℝ :=
  ∑ i ∈ Finset.range cnt, ∑ j ∈ Finset.range cnt,
    if use i j = true then ((c i j).map fun b => debyeBond (f i) (f j) b q).sum else 0

/-- Bonds are listed from both ends: the same lengths and widths, the same number of times. -/
def SymmetricBonds (c : Nat → Nat → List Bond) : Prop :=
  ∀ i j (g : ℝ → ℝ → ℝ), ((c i j).map fun b => (b.mult : ℝ) * g b.dist b.fwhm).sum =
    ((c j i).map fun b => (b.mult : ℝ) * g b.dist b.fwhm).sum

theorem pairSum_debye (f : Nat → ℝ) (c : Nat → Nat → List Bond) (use : Nat → Nat → Bool) (cnt : Nat) (q : ℝ) :
    pairSum (fun i j b => debyeBond (f i) (f j) b q) c use cnt = debyeSum f c use cnt q := rfl

theorem symmetric_debye (c : Nat → Nat → List Bond) (h : SymmetricBonds c) (f : Nat → ℝ) (q : ℝ) (i j : Nat) :
    ((c i j).map fun b => debyeBond (f i) (f j) b q).sum = ((c j i).map fun b => debyeBond (f j) (f i) b q).sum := by
  have e : ∀ (x y : ℝ) (b : Bond), debyeBond x y b q = (b.mult : ℝ) * (if |b.dist| ≤ eps then 0 else
      x * y * Real.exp (-((b.fwhm / (2 * Real.sqrt (2 * Real.log 2))) ^ 2 * q ^ 2 / 2)) *
        (Real.sin (q * b.dist) / b.dist)) := by
    intro x y b
    unfold debyeBond debyeTerm
    split <;> simp
  simp only [e]
  rw [h i j (fun d w => if |d| ≤ eps then 0 else f i * f j *
    Real.exp (-((w / (2 * Real.sqrt (2 * Real.log 2))) ^ 2 * q ^ 2 / 2)) * (Real.sin (q * d) / d))]
  simp only [mul_comm (f i) (f j)]

/-- **C56**, exact form: with a negative precision the value computed by an evaluation is Debye's double
sum at every Q step, whatever the factors, structure, masks and summation mode. -/
theorem debye_exact (p : QPar) (hp : p.Ok) (hprec : p.prec < 0) (c : Cache) (rule : Bool) (gen : Gen Bond)
    (bonds : Nat → Nat → List Bond) (hg : GenSpec gen bonds) (full : Bool) (use : Nat → Nat → Bool)
    (hsym : full = false → SymmetricBonds bonds ∧ ∀ i j, use i j = use j i) (cnt : Nat) (k : Nat)
    (hlo : p.lo ≤ (k : ℤ)) (hk : (k : ℤ) < p.hi) :
    (value p c (basicTrace rule gen full use cnt 0 1))[k]? =
      some (debyeSum (fun i => c.sf i k) bonds use cnt ((k : ℝ) * p.qstep)) := by
  obtain ⟨h1, h2⟩ := value_get p hp c (basicTrace rule gen full use cnt 0 1)
  have hn : k < p.hi.toNat := by omega
  have h3 := h2 k hn
  rw [List.getElem?_eq_getElem (by rw [h1]; exact hn)]
  rw [List.getD_eq_getElem?_getD, List.getElem?_eq_getElem (by rw [h1]; exact hn), Option.getD_some] at h3
  rw [h3]
  congr 1
  have e : ∀ t ∈ basicTrace rule gen full use cnt 0 1,
      added p (c.sf t.i0) (c.sf t.i1) t.scale t.bond k =
        (t.scale : ℝ) * debyeBond (c.sf t.i0 k) (c.sf t.i1 k) t.bond ((k : ℝ) * p.qstep) := by
    intro t _
    exact (added_error p hp _ _ _ _ k hlo).2 hprec
  rw [List.map_congr_left e, ← traceSum_real (fun i j b => debyeBond (c.sf i k) (c.sf j k) b ((k : ℝ) * p.qstep)),
    basic_value _ rule gen bonds hg full use (fun hf i j => ⟨(hsym hf).2 i j,
      symmetric_debye bonds (hsym hf).1 (fun i => c.sf i k) _ i j⟩)]
  rfl

/-- **C56**, with a non-negative precision: at every Q step the value differs from Debye's double sum by at
most the precision for every bond visited, when the products of site factors do not grow with Q. -/
theorem debye_error (p : QPar) (hp : p.Ok) (hprec : 0 ≤ p.prec) (c : Cache) (rule : Bool) (gen : Gen Bond)
    (bonds : Nat → Nat → List Bond) (hg : GenSpec gen bonds) (full : Bool) (use : Nat → Nat → Bool)
    (hsym : full = false → SymmetricBonds bonds ∧ ∀ i j, use i j = use j i) (cnt : Nat)
    (hmono : ∀ i1 i2 (j k : ℤ), p.lo ≤ j → j ≤ k → k < p.hi →
      |c.sf i1 k * c.sf i2 k| ≤ |c.sf i1 j * c.sf i2 j|) (k : Nat)
    (hlo : p.lo ≤ (k : ℤ)) (hk : (k : ℤ) < p.hi) :
    ∃ y, (value p c (basicTrace rule gen full use cnt 0 1))[k]? = some y ∧
      |y - debyeSum (fun i => c.sf i k) bonds use cnt ((k : ℝ) * p.qstep)| ≤
        p.prec * (basicTrace rule gen full use cnt 0 1).length := by
  obtain ⟨h1, h2⟩ := value_get p hp c (basicTrace rule gen full use cnt 0 1)
  have hn : k < p.hi.toNat := by omega
  have h3 := h2 k hn
  refine ⟨_, List.getElem?_eq_getElem (by rw [h1]; exact hn), ?_⟩
  rw [List.getD_eq_getElem?_getD, List.getElem?_eq_getElem (by rw [h1]; exact hn), Option.getD_some] at h3
  rw [h3, ← pairSum_debye, ← basic_value _ rule gen bonds hg full use (fun hf i j => ⟨(hsym hf).2 i j,
      symmetric_debye bonds (hsym hf).1 (fun i => c.sf i k) _ i j⟩), traceSum_real]
  apply sum_error
  intro t _
  exact (added_error p hp _ _ _ _ k hlo).1 hprec (fun j h1 h2 => hmono _ _ j k h1 h2 hk)

/-- **C56** for the plain Debye sum of any structure: factors 1, no condition. -/
theorem debye_base_error (p : QPar) (hp : p.Ok) (hprec : 0 ≤ p.prec) (sites : List Site) (rule : Bool)
    (gen : Gen Bond) (bonds : Nat → Nat → List Bond) (hg : GenSpec gen bonds) (full : Bool)
    (use : Nat → Nat → Bool) (hsym : full = false → SymmetricBonds bonds ∧ ∀ i j, use i j = use j i) (k : Nat)
    (hlo : p.lo ≤ (k : ℤ)) (hk : (k : ℤ) < p.hi) :
    ∃ y, (value p (cacheOf p sfBase sites) (basicTrace rule gen full use sites.length 0 1))[k]? = some y ∧
      |y - debyeSum (fun _ => 1) bonds use sites.length ((k : ℝ) * p.qstep)| ≤
        p.prec * (basicTrace rule gen full use sites.length 0 1).length := by
  have hsf : ∀ i, i < sites.length → ∀ j : ℤ, p.lo ≤ j → j < p.hi → (cacheOf p sfBase sites).sf i j = 1 := by
    intro i hi j h1 h2
    have h0 := hp.lo_nonneg
    obtain ⟨n, rfl⟩ : ∃ n : Nat, j = (n : ℤ) := ⟨j.toNat, by omega⟩
    unfold Cache.sf
    rw [sf_base p hp sites i hi n h2, if_pos h1]; rfl
  have hout : ∀ i, ¬ i < sites.length → ∀ j : ℤ, (cacheOf p sfBase sites).sf i j = 0 := by
    intro i hi j
    obtain ⟨m, h⟩ := cacheOf_inv p sfBase sites
    unfold Cache.sf Cache.sfSiteAtkQ
    rw [List.getElem?_eq_none (by rw [h.sites]; omega)]; rfl
  obtain ⟨y, h1, h2⟩ := debye_error p hp hprec (cacheOf p sfBase sites) rule gen bonds hg full use hsym
    sites.length (by
      intro i1 i2 j k' hj hjk hk'
      by_cases ha : i1 < sites.length
      · by_cases hb : i2 < sites.length
        · rw [hsf i1 ha k' (by omega) hk', hsf i2 hb k' (by omega) hk', hsf i1 ha j hj (by omega),
            hsf i2 hb j hj (by omega)]
        · rw [hout i2 hb, hout i2 hb, mul_zero, mul_zero]
      · rw [hout i1 ha, hout i1 ha, zero_mul, zero_mul]) k hlo hk
  refine ⟨y, h1, ?_⟩
  have e : debyeSum (fun i => (cacheOf p sfBase sites).sf i k) bonds use sites.length ((k : ℝ) * p.qstep) =
      debyeSum (fun _ => 1) bonds use sites.length ((k : ℝ) * p.qstep) := by
    unfold debyeSum
    apply Finset.sum_congr rfl
    intro i hi
    apply Finset.sum_congr rfl
    intro j hj
    beta_reduce
    rw [hsf i (Finset.mem_range.1 hi) k hlo hk, hsf j (Finset.mem_range.1 hj) k hlo hk]
  rw [← e]; exact h2

/-- **C56**, Debye PDF (partial): factors of a type times occupancy.  The value differs from Debye's double
sum with these factors by at most the precision for every bond visited.  Missing: sites of one type with
different occupancies (`sf_occupancy_bug`) and factors that grow with Q (`premature_break`). -/
theorem debye_pdf_error_partial (p : QPar) (hp : p.Ok) (hprec : 0 ≤ p.prec) (lookup : String → ℝ → ℝ)
    (hdec : ∀ t (q q' : ℝ), 0 ≤ q → q ≤ q' → |lookup t q'| ≤ |lookup t q|)
    (sites : List Site) (hu : UniformOccupancy sites) (rule : Bool)
    (gen : Gen Bond) (bonds : Nat → Nat → List Bond) (hg : GenSpec gen bonds) (full : Bool)
    (use : Nat → Nat → Bool) (hsym : full = false → SymmetricBonds bonds ∧ ∀ i j, use i j = use j i) (k : Nat)
    (hlo : p.lo ≤ (k : ℤ)) (hk : (k : ℤ) < p.hi) :
    ∃ y, (value p (cacheOf p (sfPDF lookup sites) sites)
        (basicTrace rule gen full use sites.length 0 1))[k]? = some y ∧
      |y - debyeSum (fun i => sfPDF lookup sites i (p.qstep * (k : ℝ))) bonds use sites.length
          ((k : ℝ) * p.qstep)| ≤
        p.prec * (basicTrace rule gen full use sites.length 0 1).length := by
  have hq : (0 : ℝ) < p.qstep := lt_trans eps_pos hp.qstep
  have hsf : ∀ i, i < sites.length → ∀ j : ℤ, p.lo ≤ j → j < p.hi →
      (cacheOf p (sfPDF lookup sites) sites).sf i j = sfPDF lookup sites i (p.qstep * (j : ℝ)) := by
    intro i hi j h1 h2
    have h0 := hp.lo_nonneg
    obtain ⟨n, rfl⟩ : ∃ n : Nat, j = (n : ℤ) := ⟨j.toNat, by omega⟩
    have hs := List.getElem?_eq_getElem hi
    unfold Cache.sf
    rw [sf_occupancy_partial p hp lookup sites hu i sites[i] hs n h2, if_pos h1, Option.getD_some]
    unfold sfPDF
    rw [hs]
    push_cast; rfl
  have hout : ∀ i, ¬ i < sites.length → ∀ j : ℤ, (cacheOf p (sfPDF lookup sites) sites).sf i j = 0 := by
    intro i hi j
    obtain ⟨m, h⟩ := cacheOf_inv p (sfPDF lookup sites) sites
    unfold Cache.sf Cache.sfSiteAtkQ
    rw [List.getElem?_eq_none (by rw [h.sites]; omega)]; rfl
  have hone : ∀ i (j k' : ℤ), p.lo ≤ j → j ≤ k' → k' < p.hi →
      |(cacheOf p (sfPDF lookup sites) sites).sf i k'| ≤ |(cacheOf p (sfPDF lookup sites) sites).sf i j| := by
    intro i j k' hj hjk hk'
    by_cases ha : i < sites.length
    · rw [hsf i ha k' (by omega) hk', hsf i ha j hj (by omega)]
      unfold sfPDF
      rw [List.getElem?_eq_getElem ha]
      simp only
      rw [abs_mul, abs_mul]
      apply mul_le_mul_of_nonneg_right _ (abs_nonneg _)
      apply hdec
      · have : (0 : ℝ) ≤ (j : ℝ) := by exact_mod_cast le_trans hp.lo_nonneg hj
        positivity
      · apply mul_le_mul_of_nonneg_left _ hq.le
        exact_mod_cast hjk
    · rw [hout i ha, hout i ha]
  obtain ⟨y, h1, h2⟩ := debye_error p hp hprec (cacheOf p (sfPDF lookup sites) sites) rule gen bonds hg full
    use hsym sites.length (by
      intro i1 i2 j k' hj hjk hk'
      rw [abs_mul, abs_mul]
      exact mul_le_mul (hone i1 j k' hj hjk hk') (hone i2 j k' hj hjk hk') (abs_nonneg _) (abs_nonneg _)) k hlo hk
  refine ⟨y, h1, ?_⟩
  have e : debyeSum (fun i => (cacheOf p (sfPDF lookup sites) sites).sf i k) bonds use sites.length
      ((k : ℝ) * p.qstep) =
      debyeSum (fun i => sfPDF lookup sites i (p.qstep * (k : ℝ))) bonds use sites.length ((k : ℝ) * p.qstep) := by
    unfold debyeSum
    apply Finset.sum_congr rfl
    intro i hi
    apply Finset.sum_congr rfl
    intro j hj
    beta_reduce
    rw [hsf i (Finset.mem_range.1 hi) k hlo hk, hsf j (Finset.mem_range.1 hj) k hlo hk]
    push_cast; rfl
  rw [← e]; exact h2

/-- Below Qmin the value is 0. -/
theorem value_below_qmin (p : QPar) (hp : p.Ok) (c : Cache) (tr : List (Contrib Bond)) (k : Nat)
    (hk : (k : ℤ) < p.lo) (hk2 : (k : ℤ) < p.hi) : (value p c tr)[k]? = some 0 := by
  obtain ⟨h1, h2⟩ := value_get p hp c tr
  have hn : k < p.hi.toNat := by omega
  have h3 := h2 k hn
  rw [List.getD_eq_getElem?_getD, List.getElem?_eq_getElem (by rw [h1]; exact hn), Option.getD_some] at h3
  rw [List.getElem?_eq_getElem (by rw [h1]; exact hn), h3]
  congr 1
  apply List.sum_eq_zero
  intro x hx
  obtain ⟨t, _, rfl⟩ := List.mem_map.1 hx
  unfold added
  rw [if_neg (by omega)]

/-- **C56 is false of the code** for factors that grow with Q: as soon as the scale of a bond is within the
precision at the first Q step, the bond contributes nothing at any Q. -/
theorem premature_break (p : QPar) (hp : p.Ok) (sf0 sf1 : ℤ → ℝ) (sc : ℤ) (b : Bond) (v : List ℝ)
    (hv : v.length = p.hi.toNat) (h : |sineScale p b (sc * b.mult) sf0 sf1 p.lo| ≤ p.prec) (k : Nat)
    (hk : k < p.hi.toNat) :
    (addPair p sf0 sf1 sc b v).getD k 0 = v.getD k 0 := by
  rw [(addPair_get p hp sf0 sf1 sc b v hv).2 k hk]
  unfold added
  rw [if_neg, add_zero]
  rintro ⟨_, h1, h3⟩
  exact absurd h (not_le.2 (h3 p.lo (le_refl _) h1))

/-! ### A concrete case -/

/-- Two atoms at distance 3/2, each the neighbour of the other. -/
noncomputable def exBonds (i j : Nat) : List Bond := if i = j then [] else [⟨3 / 2, 1 / 10, 1⟩]

/-- A generator that visits them. -/
noncomputable def exGen : Gen Bond := fun i sel => sel.flatMap fun j => (exBonds i j).map fun b => (j, b)

/-- Default-like parameters. -/
noncomputable def exPar : QPar := ⟨0, 10, 1 / 10, 1 / 10 ^ 6⟩

theorem exPar_ok : exPar.Ok := by
  refine ⟨le_refl _, by norm_num [exPar], ?_⟩
  simp only [exPar, eps]; norm_num

theorem exPar_steps : exPar.lo = 0 ∧ exPar.hi = 100 := by
  constructor
  · have h0 := exPar_ok.lo_nonneg
    unfold QPar.lo qminSteps at h0 ⊢
    have e : exPar.qmin / exPar.qstep = 0 := by simp [exPar]
    rw [if_neg (by simp only [exPar]; norm_num), e, Int.ceil_zero] at h0 ⊢
    simp only at h0 ⊢
    split at h0
    · omega
    · rename_i h; rw [if_neg h]
  · unfold QPar.hi qmaxSteps
    have e : exPar.qmax / exPar.qstep = ((100 : ℤ) : ℝ) := by simp only [exPar]; norm_num
    rw [if_neg (by simp only [exPar]; norm_num), e, Int.ceil_intCast]

example : GenSpec exGen exBonds ∧ SymmetricBonds exBonds ∧
    (basicTrace true exGen false (fun _ _ => true) 2 0 1).length = 1 := by
  refine ⟨fun i sel => List.Perm.refl _, ?_, ?_⟩
  · intro i j g
    unfold exBonds
    by_cases h : i = j
    · simp [h]
    · rw [if_neg h, if_neg (Ne.symm h)]
  · simp [basicTrace, basicLoop, innerLoop, exGen, exBonds, List.range_succ]

/-- The theorem on the plain Debye sum applied to it. -/
example : ∃ y, (value exPar (cacheOf exPar sfBase [⟨"C", 1, 1⟩, ⟨"C", 1, 1⟩])
      (basicTrace true exGen false (fun _ _ => true) 2 0 1))[7]? = some y ∧
    |y - debyeSum (fun _ => 1) exBonds (fun _ _ => true) 2 ((7 : ℕ) * exPar.qstep)| ≤
      exPar.prec * (basicTrace true exGen false (fun _ _ => true) 2 0 1).length :=
  debye_base_error exPar exPar_ok (by simp only [exPar]; norm_num) [⟨"C", 1, 1⟩, ⟨"C", 1, 1⟩] true exGen exBonds
    (fun i sel => List.Perm.refl _) false (fun _ _ => true) (fun _ => ⟨by
      intro i j g
      unfold exBonds
      by_cases h : i = j
      · simp [h]
      · rw [if_neg h, if_neg (Ne.symm h)], fun _ _ => rfl⟩) 7 (by rw [exPar_steps.1]; norm_num)
    (by rw [exPar_steps.2]; norm_num)

example : UniformOccupancy [⟨"C", 1 / 2, 1⟩, ⟨"O", 1, 2⟩, ⟨"C", 1 / 2, 3⟩] := by
  intro s hs t ht h
  simp only [List.mem_cons, List.not_mem_nil, or_false] at hs ht
  rcases hs with rfl | rfl | rfl <;> rcases ht with rfl | rfl | rfl <;> simp_all

/-- A factor that vanishes at Q = 0: the only bond is dropped at every Q step although its Debye term
does not vanish. -/
theorem premature_break_example : ∃ (sf : ℤ → ℝ) (b : Bond),
    (addPair exPar sf sf 2 b (List.replicate 100 0)).getD 10 0 = 0 ∧
    2 * debyeTerm (sf 10) (sf 10) b ((10 : ℝ) * exPar.qstep) ≠ 0 := by
  refine ⟨fun k => (k : ℝ), ⟨1, 0, 1⟩, ?_, ?_⟩
  · rw [premature_break exPar exPar_ok _ _ 2 ⟨1, 0, 1⟩ (List.replicate 100 0) (by rw [exPar_steps.2]; simp)
      _ 10 (by rw [exPar_steps.2]; norm_num)]
    · exact getD_replicate 100 10
    · rw [exPar_steps.1]
      unfold sineScale
      simp only [exPar]; norm_num
  · unfold debyeTerm
    simp only [exPar]
    norm_num
    have h1 := Real.sin_pos_of_pos_of_lt_pi (x := 1) (by norm_num) (by linarith [Real.pi_gt_three])
    positivity

/-! ## Normalisation of F(Q) -/

/-- The loop of `getF` from Q step `a` on. -/
theorem getF_loop (avg : List ℝ) (totocc : ℝ) (m : Nat) : ∀ (a : ℤ) (v : List ℝ), 0 ≤ a →
    a + m ≤ v.length → a + m ≤ avg.length →
    ∃ f, (intRange a (a + m)).foldl (fun (r : Option (List ℝ)) (kq : ℤ) => r.bind fun rv =>
      if 0 ≤ kq then
        (avg[kq.toNat]?).bind fun sfavg =>
          let fscale : ℝ := if sfavg * totocc = 0 then 0 else 1 / (sfavg * sfavg * totocc)
          (rv[kq.toNat]?).map fun x => rv.set kq.toNat (x * fscale)
      else none) (some v) = some f ∧ f.length = v.length ∧
      ∀ k : Nat, k < v.length → f.getD k 0 = v.getD k 0 *
        if a ≤ (k : ℤ) ∧ (k : ℤ) < a + m then
          (if avg.getD k 0 * totocc = 0 then 0 else 1 / (avg.getD k 0 * avg.getD k 0 * totocc)) else 1 := by
  induction m with
  | zero =>
    intro a v _ _ _
    refine ⟨v, by rw [intRange_empty (by simp)]; rfl, rfl, fun k _ => ?_⟩
    rw [if_neg (by omega), mul_one]
  | succ m ih =>
    intro a v ha hv havg
    have e : a + ((m + 1 : Nat) : ℤ) = (a + 1) + (m : ℤ) := by push_cast; ring
    have h1 : a.toNat < avg.length := by omega
    have h2 : a.toNat < v.length := by omega
    rw [intRange_cons (by omega), List.foldl_cons, e]
    simp only [Option.bind_some, if_pos ha, List.getElem?_eq_getElem h1, List.getElem?_eq_getElem h2,
      Option.map_some]
    generalize hy : (v[a.toNat] * if avg[a.toNat] * totocc = 0 then 0 else
      1 / (avg[a.toNat] * avg[a.toNat] * totocc)) = y
    obtain ⟨f, hf1, hf2, hf3⟩ := ih (a + 1) (v.set a.toNat y) (by omega) (by rw [List.length_set]; omega) (by omega)
    refine ⟨f, hf1, by rw [hf2, List.length_set], fun k hk => ?_⟩
    rw [hf3 k (by rw [List.length_set]; exact hk)]
    by_cases hka : a = (k : ℤ)
    · have hak : a.toNat = k := by omega
      subst hak
      rw [if_neg (by omega), if_pos (by omega), mul_one, List.getD_eq_getElem?_getD,
        List.getElem?_set_self h2, Option.getD_some, ← hy, List.getD_eq_getElem?_getD,
        List.getD_eq_getElem?_getD, List.getElem?_eq_getElem h1, List.getElem?_eq_getElem h2]
      rfl
    · rw [List.getD_eq_getElem?_getD, List.getElem?_set_ne (by omega), ← List.getD_eq_getElem?_getD]
      congr 1
      apply if_congr _ rfl rfl
      omega

/-- **C56**, normalisation: after an evaluation `getF` reads no element out of range and returns at every
Q step from Qmin the value divided by ⟨f⟩² times the total occupancy, where ⟨f⟩ is the mean factor of the
sites, and 0 where that is 0. -/
theorem getF_normalized (p : QPar) (hp : p.Ok) (sfSite : Nat → ℝ → ℝ) (sites : List Site)
    (tr : List (Contrib Bond)) (hocc : totalOccupancy sites > eps) :
    let c := cacheOf p sfSite sites
    ∃ f, getF p (sfAverage p c sites) (totalOccupancy sites) (value p c tr) = some f ∧
      f.length = p.hi.toNat ∧ ∀ k : Nat, p.lo ≤ (k : ℤ) → (k : ℤ) < p.hi →
        let mean := ((sites.zipIdx).map fun si => c.sf si.2 k * (si.1.mult : ℝ)).sum / totalOccupancy sites
        f[k]? = some (if mean = 0 then 0 else (value p c tr).getD k 0 / (mean ^ 2 * totalOccupancy sites)) := by
  intro c
  obtain ⟨h1, h2⟩ := value_get p hp c tr
  have havl : (sfAverage p c sites).length = p.hi.toNat := by
    unfold sfAverage
    simp only [List.length_map]
    have : ∀ (l : List Nat) (v : List ℝ), (l.foldl (fun sfak tp =>
        (intRange p.lo p.hi).foldl (fun sfak (kq : ℤ) =>
          sfak.modify kq.toNat (· + (c.sftype.getD tp []).getD kq.toNat 0 *
            ((typeMultiplicities c sites).getD tp 0 : ℝ))) sfak) v).length = v.length := by
      intro l
      induction l with
      | nil => intro v; rfl
      | cons a l ih => 
        intro v
        rw [List.foldl_cons, ih, length_foldl_modify (fun kq : ℤ => (c.sftype.getD a []).getD kq.toNat 0 *
            ((typeMultiplicities c sites).getD a 0 : ℝ))]
    rw [this]; simp
  have hT : totalOccupancy sites ≠ 0 := by have := eps_pos; intro h; rw [h] at hocc; linarith
  have hrange : p.hi < p.lo ∨ p.lo + ((p.hi - p.lo).toNat : ℤ) = p.hi := by omega
  have hlo := hp.lo_nonneg
  unfold getF
  rw [intRange_add]
  rcases hrange with hr | hr
  · refine ⟨value p c tr, ?_, h1, fun k h3 h4 => by omega⟩
    rw [intRange_empty (by omega)]; rfl
  obtain ⟨f, hf1, hf2, hf3⟩ := getF_loop (sfAverage p c sites) (totalOccupancy sites) (p.hi - p.lo).toNat p.lo
    (value p c tr) hlo (by rw [h1, hr]; omega) (by rw [havl, hr]; omega)
  refine ⟨f, hf1, by rw [hf2, h1], ?_⟩
  intro k hk1 hk2 mean
  have hkf : k < f.length := by rw [hf2, h1]; omega
  have h3 := hf3 k (by rw [h1]; omega)
  rw [if_pos ⟨hk1, by omega⟩] at h3
  have havg : (sfAverage p c sites).getD k 0 = mean := by
    rw [List.getD_eq_getElem?_getD, sfAverage_get p hp sfSite sites k hk1 hk2, Option.getD_some,
      if_pos (by linarith)]
    simp only [mean, c]
    ring
  rw [havg] at h3
  rw [List.getElem?_eq_getElem hkf]
  rw [List.getD_eq_getElem?_getD, List.getElem?_eq_getElem hkf, Option.getD_some] at h3
  rw [h3]
  congr 1
  by_cases hm : mean = 0
  · rw [if_pos hm, if_pos (by rw [hm, zero_mul]), mul_zero]
  · rw [if_neg hm, if_neg (mul_ne_zero hm hT)]
    ring

/-- **A result call after a change of the Q range is unsafe**: raising Qmax after an evaluation and asking
for F(Q) without another evaluation reads beyond the stored arrays. -/
theorem getF_stale_bug (p p' : QPar) (hp' : p'.Ok) (avg v : List ℝ) (totocc : ℝ)
    (hv : v.length = p.hi.toNat) (hlo : p'.lo ≤ p.hi) (hhi0 : 0 ≤ p.hi) (hhi : p.hi < p'.hi) :
    getF p' avg totocc v = none := by
  unfold getF
  have h0 := hp'.lo_nonneg
  have split : intRange p'.lo p'.hi = intRange p'.lo p.hi ++ intRange p.hi p'.hi := by
    unfold intRange
    obtain ⟨x, hx⟩ : ∃ x : Nat, p.hi = p'.lo + x := ⟨(p.hi - p'.lo).toNat, by omega⟩
    obtain ⟨y, hy⟩ : ∃ y : Nat, p'.hi = p'.lo + x + y := ⟨(p'.hi - p.hi).toNat, by omega⟩
    have e1 : (p'.hi - p'.lo).toNat = x + y := by omega
    have e2 : (p.hi - p'.lo).toNat = x := by omega
    have e3 : (p'.hi - p.hi).toNat = y := by omega
    rw [e1, e2, e3, List.range_add, List.map_append, List.map_map]
    congr 1
    apply List.map_congr_left
    intro z _
    simp only [Function.comp]
    rw [hx]; push_cast; ring
  rw [split, List.foldl_append, intRange_cons hhi, List.foldl_cons]
  have keep : ∀ (l : List ℤ) (r : Option (List ℝ)), (∀ w, r = some w → w.length = v.length) →
      ∀ w, l.foldl (fun (r : Option (List ℝ)) (kq : ℤ) => r.bind fun rv =>
        if 0 ≤ kq then
          (avg[kq.toNat]?).bind fun sfavg =>
            let fscale : ℝ := if sfavg * totocc = 0 then 0 else 1 / (sfavg * sfavg * totocc)
            (rv[kq.toNat]?).map fun x => rv.set kq.toNat (x * fscale)
        else none) r = some w → w.length = v.length := by
    intro l
    induction l with
    | nil => intro r hr w hw; exact hr w hw
    | cons a l ih =>
      intro r hr w hw
      rw [List.foldl_cons] at hw
      refine ih _ ?_ w hw
      intro u hu
      cases r with
      | none => simp at hu
      | some z =>
        rw [Option.bind_some] at hu
        split at hu
        · cases h1 : avg[a.toNat]? with
          | none => rw [h1] at hu; simp at hu
          | some s =>
            rw [h1, Option.bind_some] at hu
            cases h2 : z[a.toNat]? with
            | none => rw [h2] at hu; simp at hu
            | some t =>
              rw [h2] at hu
              simp only [Option.map_some, Option.some.injEq] at hu
              rw [← hu, List.length_set]; exact hr z rfl
        · simp at hu
  have none_stays : ∀ (l : List ℤ), l.foldl (fun (r : Option (List ℝ)) (kq : ℤ) => r.bind fun rv =>
        if 0 ≤ kq then
          (avg[kq.toNat]?).bind fun sfavg =>
            let fscale : ℝ := if sfavg * totocc = 0 then 0 else 1 / (sfavg * sfavg * totocc)
            (rv[kq.toNat]?).map fun x => rv.set kq.toNat (x * fscale)
        else none) none = none := by
    intro l
    induction l with
    | nil => rfl
    | cons a l ih => rw [List.foldl_cons]; exact ih
  have hk := keep (intRange p'.lo p.hi) (some v) (by intro w hw; cases hw; rfl)
  generalize (intRange p'.lo p.hi).foldl (fun (r : Option (List ℝ)) (kq : ℤ) => r.bind fun rv =>
        if 0 ≤ kq then
          (avg[kq.toNat]?).bind fun sfavg =>
            let fscale : ℝ := if sfavg * totocc = 0 then 0 else 1 / (sfavg * sfavg * totocc)
            (rv[kq.toNat]?).map fun x => rv.set kq.toNat (x * fscale)
        else none) (some v) = R at hk
  cases R with
  | none => exact none_stays _
  | some w =>
    have hw := hk w rfl
    have : w[p.hi.toNat]? = none := List.getElem?_eq_none (by rw [hw, hv])
    simp only [Option.bind_some, if_pos hhi0, this, Option.map_none]
    have e : (avg[p.hi.toNat]?.bind fun _ => (none : Option (List ℝ))) = none := by
      cases avg[p.hi.toNat]? <;> rfl
    rw [e]
    exact none_stays _

end Verif.Debye
