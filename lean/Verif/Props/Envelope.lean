import Verif.Model.Envelope
import Mathlib.Analysis.SpecialFunctions.Integrals.Basic
import Mathlib.Data.List.Perm.Basic
import Mathlib.Algebra.BigOperators.Group.List.Basic
import Mathlib.Tactic.Linarith
import Mathlib.Tactic.NormNum
/-!
C35: PDF envelopes and baselines.
-/
namespace Verif.Envelope
open Verif.AssocMap

/-! ### The owner of envelopes as a map from types to envelopes -/

/-- The calls that change the set of envelopes. -/
inductive Op where
  | add (e : Option Env)
  | addByType (tp : String)
  | pop (e : Option Env)
  | popByType (tp : String)
  | clear

/-- Run one call on the implementation; the Boolean is `false` for an exception. -/
def step (create : String → Option Env) (o : Owner) : Op → Owner × Bool
  | .add e => addEnvelope o e
  | .addByType tp => addEnvelopeByType create o tp
  | .pop e => (popEnvelope o e, true)
  | .popByType tp => (popEnvelopeByType o tp, true)
  | .clear => (clearEnvelopes, true)

/-- Run a history of calls; a failed call is caught by the user. -/
def run (create : String → Option Env) (o : Owner) (h : List Op) : Owner := h.foldl (fun o op => (step create o op).1) o

/-- Specification: a map from types to envelopes. -/
def specStep (create : String → Option Env) (m : String → Option Env) : Op → (String → Option Env)
  | .add none => m
  | .add (some e) => fun t => if t = e.type then some e else m t
  | .addByType tp =>
    match create tp with
    | none => m
    | some e => fun t => if t = e.type then some e else m t
  | .pop e => fun t => if m t = e then none else m t
  | .popByType tp => fun t => if t = tp then none else m t
  | .clear => fun _ => none

/-- Well-formed storage: every type once, under its own name. -/
def WF (o : Owner) : Prop := (keys o).Nodup ∧ ∀ kv ∈ o, kv.1 = kv.2.type

theorem wf_nil : WF [] := ⟨by simp [keys], by simp⟩

theorem wf_put {o : Owner} (h : WF o) (e : Env) : WF (put o e.type e) := by
  refine ⟨nodup_put _ _ h.1, ?_⟩
  intro kv hkv
  unfold put at hkv
  rcases List.mem_cons.1 hkv with rfl | hm
  · rfl
  · exact h.2 kv (List.mem_of_mem_filter hm)

theorem wf_erase {o : Owner} (h : WF o) (t : String) : WF (erase o t) :=
  ⟨nodup_erase _ h.1, fun kv hkv => h.2 kv (List.mem_of_mem_filter hkv)⟩

theorem wf_step (create : String → Option Env) {o : Owner} (h : WF o) (op : Op) : WF (step create o op).1 := by
  cases op with
  | add e => cases e with
    | none => exact h
    | some e => exact wf_put h e
  | addByType tp =>
    simp only [step, addEnvelopeByType]
    cases create tp with
    | none => exact h
    | some e => exact wf_put h e
  | pop e =>
    unfold step popEnvelope
    simp only
    cases List.find? _ o with
    | none => exact h
    | some kv => exact wf_erase h _
  | popByType tp => exact wf_erase h tp
  | clear => exact wf_nil

theorem step_find (create : String → Option Env) {o : Owner} (h : WF o) (op : Op) (t : String) :
    getEnvelopeByType (step create o op).1 t = specStep create (getEnvelopeByType o) op t := by
  unfold getEnvelopeByType
  cases op with
  | add e => cases e with
    | none => rfl
    | some e =>
      simp only [step, addEnvelope, specStep, find_put]
  | addByType tp =>
    simp only [step, addEnvelopeByType, specStep]
    cases create tp with
    | none => rfl
    | some e =>
      simp only [find_put]
  | pop e =>
    simp only [step, popEnvelope, specStep]
    cases hf : List.find? (fun kv => decide (some kv.2 = e)) o with
    | none =>
      simp only
      have hno : ∀ kv ∈ o, some kv.2 ≠ e := by
        intro kv hkv he
        have := List.find?_eq_none.1 hf kv hkv
        simp [he] at this
      by_cases hm : find o t = e
      · rw [if_pos hm]
        cases hv : find o t with
        | none => rfl
        | some v => exact absurd (hv.symm.trans hm) (hno _ (mem_of_find hv))
      · rw [if_neg hm]
    | some kv =>
      simp only
      have hmem := List.mem_of_find?_eq_some hf
      have he : some kv.2 = e := by
        have := List.find?_some hf
        simpa using this
      have hk : find o kv.1 = some kv.2 := (find_eq_some_iff h.1).2 hmem
      rw [find_erase]
      by_cases ht : kv.1 = t
      · subst ht
        rw [if_pos rfl, hk, if_pos he]
      · rw [if_neg (Ne.symm ht)]
        have : find o t ≠ e := by
          intro hc
          rw [← he] at hc
          have h1 := h.2 _ hmem
          have h2 := h.2 _ (mem_of_find hc)
          exact ht (h1.trans h2.symm)
        rw [if_neg this]
  | popByType tp =>
    simp only [step, popEnvelopeByType, specStep, find_erase]
  | clear => rfl

theorem wf_run (create : String → Option Env) (h : List Op) {o : Owner} (ho : WF o) : WF (run create o h) := by
  induction h generalizing o with
  | nil => exact ho
  | cons op h ih => exact ih (wf_step create ho op)

/-- C35. After every history of calls the envelopes in use are those of the map specification: one per
type, the last one added. -/
theorem owner_history (create : String → Option Env) (h : List Op) (t : String) :
    getEnvelopeByType (run create [] h) t = h.foldl (specStep create) (fun _ => none) t := by
  have key : ∀ (h : List Op) (o : Owner) (m : String → Option Env), WF o → (∀ t, getEnvelopeByType o t = m t) →
      ∀ t, getEnvelopeByType (run create o h) t = h.foldl (specStep create) m t := by
    intro h
    induction h with
    | nil => intro o m _ hm t; exact hm t
    | cons op h ih =>
      intro o m ho hm t
      have e : getEnvelopeByType o = m := funext hm
      refine ih _ _ (wf_step create ho op) (fun t => ?_) t
      rw [step_find create ho, e]
  exact key h [] _ wf_nil (fun _ => rfl) t

/-- C35. Calls with a null pointer or an unknown type fail and change nothing; the other ones succeed. -/
theorem failed_calls (create : String → Option Env) (o : Owner) (op : Op) :
    ((step create o op).2 = false ↔ op = .add none ∨ ∃ tp, op = .addByType tp ∧ create tp = none) ∧
    ((step create o op).2 = false → (step create o op).1 = o) := by
  cases op with
  | add e => cases e <;> simp [step, addEnvelope]
  | addByType tp =>
    unfold step addEnvelopeByType
    cases hc : create tp <;> simp [hc]
  | pop e => simp [step]
  | popByType tp => simp [step]
  | clear => simp [step]

/-- C35. The reported set of types is the domain of the map. -/
theorem types_spec (o : Owner) (t : String) : t ∈ usedEnvelopeTypes o ↔ ∃ e, getEnvelopeByType o t = some e := by
  unfold usedEnvelopeTypes getEnvelopeByType
  have := find_eq_none_iff (m := o) (k := t)
  cases hf : find o t with
  | none => simp [this.1 hf]
  | some e =>
    simp only [Option.some.injEq, exists_eq', iff_true]
    by_contra hc
    rw [this.2 hc] at hf
    exact absurd hf (by simp)

/-! ### The applied envelope is the product -/

theorem apply_length (fn : Nat → ℝ → ℝ) (o : Owner) (x y : List ℝ) (h : x.length = y.length) :
    (applyEnvelopes fn o x y).length = y.length := by
  induction o generalizing y with
  | nil => rfl
  | cons kv o ih =>
    unfold applyEnvelopes
    simp only [List.foldl_cons]
    have hl : (List.zipWith (fun xi zi => zi * fn kv.2.id xi) x y).length = y.length := by simp [h]
    have := ih (List.zipWith (fun xi zi => zi * fn kv.2.id xi) x y) (by rw [hl]; exact h)
    unfold applyEnvelopes at this
    rw [this, hl]

theorem apply_raw (fn : Nat → ℝ → ℝ) (o : Owner) (x y : List ℝ) (k : Nat) (a b : ℝ) (hx : x[k]? = some a)
    (hy : y[k]? = some b) :
    (applyEnvelopes fn o x y)[k]? = some (b * (o.map fun kv => fn kv.2.id a).prod) := by
  induction o generalizing y b with
  | nil => simp [applyEnvelopes, hy]
  | cons kv o ih =>
    unfold applyEnvelopes
    simp only [List.foldl_cons, List.map_cons, List.prod_cons]
    have := ih (List.zipWith (fun xi zi => zi * fn kv.2.id xi) x y) (b * fn kv.2.id a) (by
      rw [List.getElem?_zipWith, hx, hy])
    unfold applyEnvelopes at this
    rw [this, mul_assoc]

/-- C35. Every point of the data is multiplied by the product of the envelopes in use, one factor per type. -/
theorem apply_spec (fn : Nat → ℝ → ℝ) (o : Owner) (ho : WF o) (x y : List ℝ) (h : x.length = y.length) :
    (applyEnvelopes fn o x y).length = y.length ∧ (usedEnvelopeTypes o).Nodup ∧
    ∀ (k : Nat) a b, x[k]? = some a → y[k]? = some b →
      (applyEnvelopes fn o x y)[k]? = some (b * ((usedEnvelopeTypes o).map fun t =>
        match getEnvelopeByType o t with | some e => fn e.id a | none => 1).prod) := by
  refine ⟨apply_length fn o x y h, ho.1, ?_⟩
  intro k a b hx hy
  rw [apply_raw fn o x y k a b hx hy]
  congr 3
  unfold usedEnvelopeTypes keys
  rw [List.map_map]
  refine List.map_congr_left fun kv hkv => ?_
  unfold getEnvelopeByType
  simp only [Function.comp]
  rw [(find_eq_some_iff ho.1 (k := kv.1) (v := kv.2)).2 hkv]

theorem perm_of_find {o o' : Owner} (h : WF o) (h' : WF o') (he : ∀ t, getEnvelopeByType o t = getEnvelopeByType o' t) :
    o.Perm o' := by
  refine (List.perm_ext_iff_of_nodup ?_ ?_).2 ?_
  · exact List.Nodup.of_map _ h.1
  · exact List.Nodup.of_map _ h'.1
  · intro kv
    rw [show kv = (kv.1, kv.2) from rfl, ← find_eq_some_iff h.1, ← find_eq_some_iff h'.1]
    exact Eq.congr_left (he kv.1)

/-- C35. The order in which envelopes were added does not matter: two histories that end with the same
envelopes in use give the same data. -/
theorem apply_order (create : String → Option Env) (fn : Nat → ℝ → ℝ) (h h' : List Op) (x y : List ℝ)
    (hl : x.length = y.length)
    (he : ∀ t, getEnvelopeByType (run create [] h) t = getEnvelopeByType (run create [] h') t) :
    applyEnvelopes fn (run create [] h) x y = applyEnvelopes fn (run create [] h') x y := by
  have w := wf_run create h wf_nil
  have w' := wf_run create h' wf_nil
  have hp := perm_of_find w w' he
  apply List.ext_getElem?
  intro k
  by_cases hk : k < y.length
  · have hx : x[k]? = some x[k] := List.getElem?_eq_getElem (by omega)
    have hy : y[k]? = some y[k] := List.getElem?_eq_getElem hk
    rw [apply_raw fn _ x y k _ _ hx hy, apply_raw fn _ x y k _ _ hx hy]
    congr 2
    exact (hp.map _).prod_eq
  · rw [List.getElem?_eq_none (by rw [apply_length fn _ x y hl]; omega),
      List.getElem?_eq_none (by rw [apply_length fn _ x y hl]; omega)]

/-- C35. Removing the type that was just added to an owner without it restores the data. -/
theorem add_pop (create : String → Option Env) (fn : Nat → ℝ → ℝ) (h : List Op) (e : Env) (x y : List ℝ)
    (hl : x.length = y.length) (hn : getEnvelopeByType (run create [] h) e.type = none) :
    applyEnvelopes fn (run create [] (h ++ [.add (some e), .popByType e.type])) x y =
      applyEnvelopes fn (run create [] h) x y ∧
    applyEnvelopes fn (run create [] (h ++ [.add (some e), .pop (some e)])) x y =
      applyEnvelopes fn (run create [] h) x y := by
  constructor <;> refine apply_order create fn _ _ x y hl fun t => ?_
  · rw [owner_history, owner_history] at *
    rw [List.foldl_append]
    simp only [List.foldl_cons, List.foldl_nil, specStep]
    by_cases ht : t = e.type
    · rw [if_pos ht, ht, hn]
    · rw [if_neg ht, if_neg ht]
  · have inv : ∀ t v, getEnvelopeByType (run create [] h) t = some v → t = v.type := by
      intro t v hv
      exact (wf_run create h wf_nil).2 (t, v) (mem_of_find hv)
    rw [owner_history, owner_history] at *
    rw [List.foldl_append]
    simp only [List.foldl_cons, List.foldl_nil, specStep]
    by_cases ht : t = e.type
    · rw [if_pos ht, if_pos rfl, ht, hn]
    · rw [if_neg ht]
      have : List.foldl (specStep create) (fun _ => none) h t ≠ some e := by
        intro hc
        rw [← owner_history] at hc
        exact ht (inv t e hc)
      rw [if_neg this]

/-- C35. The baseline is added at every point. -/
theorem baseline_spec (bl : ℝ → ℝ) (x y : List ℝ) (h : x.length = y.length) :
    (applyBaseline bl x y).length = y.length ∧
    ∀ (k : Nat) a b, x[k]? = some a → y[k]? = some b → (applyBaseline bl x y)[k]? = some (b + bl a) := by
  refine ⟨by simp [applyBaseline, h], ?_⟩
  intro k a b hx hy
  unfold applyBaseline
  rw [List.getElem?_zipWith, hx, hy]

/-! ### The envelope functions -/

/-- C35. The spherical shape envelope: 1 at the origin and without a diameter, within [0, 1],
non-increasing, zero from the diameter on. -/
theorem spherical_spec (d : ℝ) (hd : 0 < d) :
    spherical d 0 = 1 ∧ (∀ r, d ≤ r → spherical d r = 0) ∧ (∀ r, 0 ≤ r → 0 ≤ spherical d r ∧ spherical d r ≤ 1) ∧
    (∀ r s, 0 ≤ r → r ≤ s → spherical d s ≤ spherical d r) := by
  have hzero : ∀ r, d ≤ r → spherical d r = 0 := by
    intro r hr
    unfold spherical
    rw [if_neg (not_le.2 hd)]
    rcases lt_or_eq_of_le hr with h | h
    · rw [if_pos h]
    · subst h
      rw [if_neg (lt_irrefl _)]
      simp only [div_self hd.ne']
      norm_num
  have hin : ∀ r, r ≤ d → spherical d r = (1 - r / d) ^ 2 * (1 + r / d / 2) := by
    intro r hr
    unfold spherical
    rw [if_neg (not_le.2 hd), if_neg (not_lt.2 hr)]
    simp only
    ring
  have hanti : ∀ r s, 0 ≤ r → r ≤ s → spherical d s ≤ spherical d r := by
    intro r s hr hs
    have hpos : ∀ r, 0 ≤ r → 0 ≤ spherical d r := by
      intro r hr
      rcases le_total d r with h | h
      · rw [hzero r h]
      · rw [hin r h]
        have : 0 ≤ r / d := div_nonneg hr hd.le
        positivity
    rcases le_total d s with h | h
    · rw [hzero s h]; exact hpos r hr
    · rw [hin s h, hin r (hs.trans h)]
      have h1 : r / d ≤ s / d := div_le_div_of_nonneg_right hs hd.le
      have h2 : s / d ≤ 1 := (div_le_one hd).2 h
      have h3 : 0 ≤ r / d := div_nonneg hr hd.le
      generalize r / d = u at *
      generalize s / d = v at *
      nlinarith [mul_nonneg (sub_nonneg.2 h1) (sub_nonneg.2 h2), mul_nonneg h3 (sub_nonneg.2 h1),
        mul_nonneg (sub_nonneg.2 h1) (by nlinarith : 0 ≤ 3 - (u * u + u * v + v * v))]
  have h0 : spherical d 0 = 1 := by rw [hin 0 hd.le]; norm_num
  refine ⟨h0, hzero, fun r hr => ⟨?_, ?_⟩, hanti⟩
  · have h1 := hanti r (max r d) hr (le_max_left _ _)
    rwa [hzero _ (le_max_right _ _)] at h1
  · rw [← h0]; exact hanti 0 r le_rfl hr

/-- C35. Without a positive diameter the spherical envelope has no effect. -/
theorem spherical_off (d r : ℝ) (hd : d ≤ 0) : spherical d r = 1 := if_pos hd

/-- C35. The spherical envelope is the fraction of a sphere of diameter `d` that overlaps with its copy
displaced by `r`: twice the volume of the cap cut off at `r/2` from the centre. -/
theorem spherical_volume (d r : ℝ) (hd : 0 < d) (_hr : 0 ≤ r) (hrd : r ≤ d) :
    spherical d r * (4 / 3 * Real.pi * (d / 2) ^ 3) =
      2 * ∫ z in (r / 2)..(d / 2), Real.pi * ((d / 2) ^ 2 - z ^ 2) := by
  rw [intervalIntegral.integral_const_mul, intervalIntegral.integral_sub (by simp) (by simp)]
  simp only [intervalIntegral.integral_const, integral_pow, smul_eq_mul]
  unfold spherical
  rw [if_neg (not_le.2 hd), if_neg (not_lt.2 hrd)]
  push_cast
  field_simp
  ring

/-- C35. The step cut is 1 up to the cut and 0 beyond; without a positive cut it has no effect. -/
theorem stepCut_spec (c r : ℝ) :
    (0 < c → r ≤ c → stepCut c r = 1) ∧ (0 < c → c < r → stepCut c r = 0) ∧ (c ≤ 0 → stepCut c r = 1) := by
  unfold stepCut
  refine ⟨fun _ h => if_neg fun hh => absurd hh.2 (not_lt.2 h), fun h h' => if_pos ⟨h, h'⟩,
    fun h => if_neg fun hh => absurd hh.1 (not_lt.2 h)⟩

/-- C35. The Q-resolution envelope: 1 at the origin, positive, at most 1, even, non-increasing for r ≥ 0;
without a positive damping it has no effect. -/
theorem qResolution_spec (q : ℝ) :
    qResolution q 0 = 1 ∧ (∀ r, 0 < qResolution q r ∧ qResolution q r ≤ 1 ∧ qResolution q (-r) = qResolution q r) ∧
    (∀ r s, 0 ≤ r → r ≤ s → qResolution q s ≤ qResolution q r) ∧
    (q ≤ 0 → ∀ r, qResolution q r = 1) ∧ (0 < q → qResolution q (1 / q) = Real.exp (-1 / 2)) := by
  unfold qResolution
  refine ⟨by split <;> simp, fun r => ⟨by split <;> positivity, ?_, ?_⟩, ?_, ?_, ?_⟩
  · split
    · rw [Real.exp_le_one_iff]
      have := sq_nonneg (r * q)
      linarith
    · exact le_rfl
  · rw [neg_mul, neg_sq]
  · intro r s hr hs
    by_cases hq : q > 0
    · rw [if_pos hq, if_pos hq, Real.exp_le_exp]
      have h1 : r * q ≤ s * q := mul_le_mul_of_nonneg_right hs hq.le
      have h2 : 0 ≤ r * q := mul_nonneg hr hq.le
      nlinarith
    · rw [if_neg hq, if_neg hq]
  · intro h r; exact if_neg (not_lt.2 h)
  · intro h
    rw [if_pos h, one_div, inv_mul_cancel₀ h.ne']
    norm_num

/-! ### Concrete cases -/

/-- A history with a replaced, a removed and a failed envelope. -/
example :
    let create : String → Option Env := fun t => if t = "scale" then some ⟨9, "scale"⟩ else none
    let h : List Op := [.addByType "scale", .add (some ⟨1, "stepcut"⟩), .add (some ⟨2, "stepcut"⟩), .addByType "bogus",
      .add none, .pop (some ⟨1, "stepcut"⟩)]
    getEnvelopeByType (run create [] h) "stepcut" = some ⟨2, "stepcut"⟩ ∧
    getEnvelopeByType (run create [] h) "scale" = some ⟨9, "scale"⟩ ∧
    (usedEnvelopeTypes (run create [] h)).length = 2 := by decide

example : applyEnvelopes (fun i _ => if i = 1 then 2 else 3) [("a", ⟨1, "a"⟩), ("b", ⟨2, "b"⟩)] [0, 1] [5, 7] = [30, 42] := by
  norm_num [applyEnvelopes]

example : spherical 2 1 = 5 / 16 := by norm_num [spherical]

example : getEnvelopeByType (run (fun _ => none) [] [Op.add (some ⟨1, "a"⟩)]) "b" = none := by decide

end Verif.Envelope
