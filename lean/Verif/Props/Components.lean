import Verif.Model.Components
import Mathlib.Tactic.Linarith
import Mathlib.Tactic.FieldSimp
import Mathlib.Tactic.Positivity
import Mathlib.Tactic.Ring
/-!
C77: component objects keep their settings.

Specification: every class has independent parameters with default values (`params`), and setting an attribute stores one
number in one parameter (`effect`).  A parameter of an object has the value that was stored last, for any program; objects do not
influence each other, and what an object computes depends on its class and settings only.
-/
namespace Verif.Components
open Verif.Peak

/-! ### Specification -/

/-- The parameters of a class with the values of a new object. -/
noncomputable def params : Cls → List (String × ℝ)
  | .scale => [("scale", 1)]
  | .qresolution => [("qdamp", 0)]
  | .spherical => [("spdiameter", 0)]
  | .stepcut => [("stepcut", 0)]
  | .linear => [("slope", 0)]
  | .gaussian | .cropped => [("peakprecision", 1 / 2 ^ 52)]
  | .constant => [("width", 0)]
  | .jeong => [("delta1", 0), ("delta2", 0), ("qbroad", 0), ("qbroad_seperable", 0)]
  | _ => []

/-- The width of a peak between atoms with the isotropic displacement parameter `u`: full width at half maximum of a Gaussian of
variance `2 u`; negative parameters stand for negative widths. -/
noncomputable def fwhmOfUiso (u : ℝ) : ℝ :=
  if 0 ≤ u then 2 * Real.sqrt (2 * Real.log 2) * Real.sqrt (2 * u) else -(2 * Real.sqrt (2 * Real.log 2) * Real.sqrt (2 * -u))

/-- Which parameter an attribute sets, and to what number.  The precision of a profile is at least 2^-52; `uisowidth` and
`bisowidth` set the width. -/
noncomputable def effect (c : Cls) (name : String) (x : ℝ) : Option (String × ℝ) :=
  match c with
  | .gaussian | .cropped => if name = "peakprecision" then some (name, max x (1 / 2 ^ 52)) else none
  | .constant =>
    if name = "width" then some (name, x)
    else if name = "uisowidth" then some ("width", fwhmOfUiso x)
    else if name = "bisowidth" then some ("width", fwhmOfUiso (x / (8 * Real.pi ^ 2)))
    else none
  | c => if name ∈ (params c).map (·.1) then some (name, x) else none

/-- The number that the last effective setting in a program stores in parameter `p` of object `h` of class `c`. -/
noncomputable def lastSet (c : Cls) (h : Nat) (p : String) (prog : List Op) : Option ℝ :=
  prog.reverse.findSome? fun
    | .set k name x => if k = h then (effect c name x).bind fun q => if q.1 = p then some q.2 else none else none
    | _ => none

/-- The value of attribute `name` of object `h`. -/
noncomputable def attr (hp : Heap) (h : Nat) (name : String) : Option ℝ := hp[h]?.bind fun o => o.get name

/-! ### One object -/

/-- New objects have the default values. -/
theorem new_defaults {c : Cls} {o : Comp} (h : Comp.new c = some o) :
    o.cls = c ∧ ∀ e ∈ params c, o.get e.1 = some e.2 := by
  have hpos : (0 : ℝ) < 1 / 2 ^ 52 := by positivity
  have hlt : (1 : ℝ) / 2 ^ 52 < 1 := by norm_num
  cases c <;> simp only [Comp.new, Option.some.injEq, reduceCtorEq] at h <;> subst h <;>
    refine ⟨rfl, ?_⟩ <;> intro e he <;>
    simp only [params, List.mem_cons, List.not_mem_nil, or_false] at he
  case gaussian =>
    subst he
    simp only [Comp.get, if_true, Gauss.new, Gauss.setPrecision, max_self, dblEps, Gauss.basePrecision]
    rw [if_pos hlt]
  case cropped =>
    subst he
    simp only [Comp.get, if_true, Cropped.new, Cropped.setPrecision]
    have : ∀ g : Gauss, (g.setPrecision (Gauss.new).precision).precision = 1 / 2 ^ 52 := by
      intro g
      have h1 : Gauss.new.precision = 1 / 2 ^ 52 := by
        simp only [Gauss.new, Gauss.setPrecision, max_self, dblEps, Gauss.basePrecision]
        rw [if_pos hlt]
      simp only [Gauss.setPrecision, h1, dblEps, max_self, Gauss.basePrecision]
      rw [if_pos hlt]
    split <;> simp [this]
  case jeong => rcases he with rfl | rfl | rfl | rfl <;> simp [Comp.get]
  all_goals (subst he; simp [Comp.get])

theorem gauss_precision (g : Gauss) (x : ℝ) : (g.setPrecision x).precision = max x (1 / 2 ^ 52) := by
  unfold Gauss.setPrecision Gauss.basePrecision dblEps
  dsimp only
  split <;> rfl

theorem cropped_precision (c : Cropped) (x : ℝ) : (c.setPrecision x).g.precision = max x (1 / 2 ^ 52) := by
  unfold Cropped.setPrecision
  dsimp only
  split <;> exact gauss_precision _ _

theorem setUiso_width (w : ConstW) (u : ℝ) : (w.setUiso u).width = fwhmOfUiso u := by
  unfold ConstW.setUiso ConstW.setWidth fwhmOfUiso sigmaToFwhm
  dsimp only
  by_cases h : 0 ≤ u
  · have h' : u ≥ 0 := h
    rw [if_pos h, if_pos h']; norm_num
  · have h' : ¬ u ≥ 0 := h
    rw [if_neg h, if_neg h']; norm_num

theorem UtoB_eq : UtoB = 8 * Real.pi ^ 2 := by unfold UtoB; ring

/-- An attribute can be set exactly when it has an effect, which keeps the class and stores one number in one parameter. -/
theorem set_effect (o : Comp) (name : String) (x : ℝ) :
    (o.set name x = none ∧ effect o.cls name x = none) ∨
    ∃ o' q, o.set name x = some o' ∧ effect o.cls name x = some q ∧ o'.cls = o.cls ∧ q.1 ∈ (params o.cls).map (·.1) ∧
      ∀ e ∈ params o.cls, o'.get e.1 = if q.1 = e.1 then some q.2 else o.get e.1 := by
  cases o with
  | zero => left; simp [Comp.set, effect, Comp.cls, params]
  | debyeWaller n => left; simp [Comp.set, effect, Comp.cls, params]
  | scale y =>
    by_cases h : name = "scale"
    · subst h; right; exact ⟨.scale x, ("scale", x), by simp [Comp.set], by simp [effect, Comp.cls, params], rfl,
        by simp [Comp.cls, params], by simp [Comp.cls, params, Comp.get]⟩
    · left; simp [Comp.set, effect, Comp.cls, params, h]
  | qresolution y =>
    by_cases h : name = "qdamp"
    · subst h; right; exact ⟨.qresolution x, ("qdamp", x), by simp [Comp.set], by simp [effect, Comp.cls, params], rfl,
        by simp [Comp.cls, params], by simp [Comp.cls, params, Comp.get]⟩
    · left; simp [Comp.set, effect, Comp.cls, params, h]
  | spherical y =>
    by_cases h : name = "spdiameter"
    · subst h; right; exact ⟨.spherical x, ("spdiameter", x), by simp [Comp.set], by simp [effect, Comp.cls, params], rfl,
        by simp [Comp.cls, params], by simp [Comp.cls, params, Comp.get]⟩
    · left; simp [Comp.set, effect, Comp.cls, params, h]
  | stepcut y =>
    by_cases h : name = "stepcut"
    · subst h; right; exact ⟨.stepcut x, ("stepcut", x), by simp [Comp.set], by simp [effect, Comp.cls, params], rfl,
        by simp [Comp.cls, params], by simp [Comp.cls, params, Comp.get]⟩
    · left; simp [Comp.set, effect, Comp.cls, params, h]
  | linear y =>
    by_cases h : name = "slope"
    · subst h; right; exact ⟨.linear x, ("slope", x), by simp [Comp.set], by simp [effect, Comp.cls, params], rfl,
        by simp [Comp.cls, params], by simp [Comp.cls, params, Comp.get]⟩
    · left; simp [Comp.set, effect, Comp.cls, params, h]
  | gaussian g =>
    by_cases h : name = "peakprecision"
    · subst h; right
      exact ⟨.gaussian (g.setPrecision x), ("peakprecision", max x (1 / 2 ^ 52)), by simp [Comp.set], by simp [effect, Comp.cls],
        rfl, by simp [Comp.cls, params], by simp [Comp.cls, params, Comp.get, gauss_precision]⟩
    · left; simp [Comp.set, effect, Comp.cls, h]
  | cropped c =>
    by_cases h : name = "peakprecision"
    · subst h; right
      exact ⟨.cropped (c.setPrecision x), ("peakprecision", max x (1 / 2 ^ 52)), by simp [Comp.set], by simp [effect, Comp.cls],
        rfl, by simp [Comp.cls, params], by simp [Comp.cls, params, Comp.get, cropped_precision]⟩
    · left; simp [Comp.set, effect, Comp.cls, h]
  | constant w =>
    by_cases h : name = "width"
    · subst h; right
      exact ⟨.constant (w.setWidth x), ("width", x), by simp [Comp.set], by simp [effect, Comp.cls],
        rfl, by simp [Comp.cls, params], by simp [Comp.cls, params, Comp.get, ConstW.setWidth]⟩
    by_cases h2 : name = "uisowidth"
    · subst h2; right
      exact ⟨.constant (w.setUiso x), ("width", fwhmOfUiso x), by simp [Comp.set], by simp [effect, Comp.cls],
        rfl, by simp [Comp.cls, params], by simp [Comp.cls, params, Comp.get, setUiso_width]⟩
    by_cases h3 : name = "bisowidth"
    · subst h3; right
      exact ⟨.constant (w.setBiso x), ("width", fwhmOfUiso (x / (8 * Real.pi ^ 2))), by simp [Comp.set],
        by simp [effect, Comp.cls], rfl, by simp [Comp.cls, params],
        by simp [Comp.cls, params, Comp.get, ConstW.setBiso, setUiso_width, UtoB_eq]⟩
    · left; simp [Comp.set, effect, Comp.cls, h, h2, h3]
  | jeong j n =>
    by_cases h : name = "delta1"
    · subst h; right
      exact ⟨.jeong { j with delta1 := x } (clickIf j.delta1 x n), ("delta1", x), by simp [Comp.set],
        by simp [effect, Comp.cls, params], rfl, by simp [Comp.cls, params], by simp [Comp.cls, params, Comp.get]⟩
    by_cases h2 : name = "delta2"
    · subst h2; right
      exact ⟨.jeong { j with delta2 := x } (clickIf j.delta2 x n), ("delta2", x), by simp [Comp.set],
        by simp [effect, Comp.cls, params], rfl, by simp [Comp.cls, params], by simp [Comp.cls, params, Comp.get]⟩
    by_cases h3 : name = "qbroad"
    · subst h3; right
      exact ⟨.jeong { j with qbroad := x } (clickIf j.qbroad x n), ("qbroad", x), by simp [Comp.set],
        by simp [effect, Comp.cls, params], rfl, by simp [Comp.cls, params], by simp [Comp.cls, params, Comp.get]⟩
    by_cases h4 : name = "qbroad_seperable"
    · subst h4; right
      exact ⟨.jeong { j with qbroadSep := x } (clickIf j.qbroadSep x n), ("qbroad_seperable", x), by simp [Comp.set],
        by simp [effect, Comp.cls, params], rfl, by simp [Comp.cls, params], by simp [Comp.cls, params, Comp.get]⟩
    · left; simp [Comp.set, effect, Comp.cls, params, h, h2, h3, h4]

theorem sigma_pos : 0 < sigmaToFwhm := by
  unfold sigmaToFwhm
  have : 0 < Real.log 2 := Real.log_pos (by norm_num)
  positivity

theorem uiso_of_fwhm (w : ConstW) (u : ℝ) (h : w.width = fwhmOfUiso u) : w.getUiso = u := by
  have hs := sigma_pos
  have hs' : sigmaToFwhm = 2 * Real.sqrt (2 * Real.log 2) := rfl
  unfold ConstW.getUiso
  dsimp only
  rw [h]
  unfold fwhmOfUiso
  rw [← hs']
  by_cases hu : 0 ≤ u
  · rw [if_pos hu, mul_div_cancel_left₀ _ hs.ne', if_pos (Real.sqrt_nonneg _)]
    have := Real.mul_self_sqrt (show 0 ≤ 2 * u by linarith)
    calc (1 : ℝ) * 0.5 * √(2 * u) * √(2 * u) = 0.5 * (√(2 * u) * √(2 * u)) := by ring
      _ = u := by rw [this]; ring
  · have hu' : u < 0 := not_le.1 hu
    rw [if_neg hu, neg_div, mul_div_cancel_left₀ _ hs.ne']
    have hp : 0 < √(2 * -u) := Real.sqrt_pos.2 (by linarith)
    rw [if_neg (by simpa using hp)]
    have := Real.mul_self_sqrt (show 0 ≤ 2 * -u by linarith)
    calc (-1 : ℝ) * 0.5 * -√(2 * -u) * -√(2 * -u) = -0.5 * (√(2 * -u) * √(2 * -u)) := by ring
      _ = u := by rw [this]; ring

/-- **A number that was set is read back** under the same name, up to the smallest precision of profiles. -/
theorem set_get {o o' : Comp} {name : String} {x : ℝ} (h : o.set name x = some o') :
    o'.get name = some (if name = "peakprecision" then max x (1 / 2 ^ 52) else x) := by
  cases o <;> simp only [Comp.set] at h
  case constant w =>
    split at h
    · rename_i hn; subst hn; cases h; simp [Comp.get, ConstW.setWidth]
    split at h
    · rename_i hn; subst hn; cases h
      have hu := uiso_of_fwhm (w.setBiso x) (x / UtoB) (setUiso_width _ _)
      have hb : UtoB ≠ 0 := by rw [UtoB_eq]; have := Real.pi_pos; positivity
      simp only [Comp.get, ConstW.getBiso, hu]
      simp
      field_simp
    split at h
    · rename_i hn; subst hn; cases h
      have hu := uiso_of_fwhm (w.setUiso x) x (setUiso_width _ _)
      simp [Comp.get, hu]
    · cases h
  case jeong j n =>
    split at h
    · rename_i hn; subst hn; cases h; simp [Comp.get]
    split at h
    · rename_i hn; subst hn; cases h; simp [Comp.get]
    split at h
    · rename_i hn; subst hn; cases h; simp [Comp.get]
    split at h
    · rename_i hn; subst hn; cases h; simp [Comp.get]
    · cases h
  case gaussian g =>
    split at h
    · rename_i hn; subst hn; cases h; simp [Comp.get, gauss_precision]
    · cases h
  case cropped g =>
    split at h
    · rename_i hn; subst hn; cases h; simp [Comp.get, cropped_precision]
    · cases h
  case zero => cases h
  case debyeWaller => cases h
  all_goals
    split at h
    · rename_i hn; subst hn; cases h; simp [Comp.get]
    · cases h

/-- **The same names can be read and set**. -/
theorem readable_iff_settable (o : Comp) (name : String) (x : ℝ) : (o.get name).isSome ↔ (o.set name x).isSome := by
  cases o <;> simp only [Comp.set, Comp.get] <;> (repeat' split) <;> simp_all

/-- **The three views of a constant width agree**: `uisowidth` of width `w` is the displacement parameter that gives it, and
`bisowidth` is 8 pi^2 times that. -/
theorem width_views {o : Comp} (h : o.cls = .constant) :
    ∃ w u, o.get "width" = some w ∧ o.get "uisowidth" = some u ∧ o.get "bisowidth" = some (8 * Real.pi ^ 2 * u) ∧
      fwhmOfUiso u = w := by
  cases o <;> simp only [Comp.cls, reduceCtorEq] at h
  rename_i w
  refine ⟨w.width, w.getUiso, by simp [Comp.get], by simp [Comp.get], by simp [Comp.get, ConstW.getBiso, UtoB_eq], ?_⟩
  have hs := sigma_pos
  have hs' : sigmaToFwhm = 2 * Real.sqrt (2 * Real.log 2) := rfl
  by_cases hw : w.width / sigmaToFwhm ≥ 0
  · have hu : w.getUiso = 0.5 * ((w.width / sigmaToFwhm) * (w.width / sigmaToFwhm)) := by
      unfold ConstW.getUiso; dsimp only; rw [if_pos hw]; ring
    rw [hu]
    unfold fwhmOfUiso
    rw [← hs']
    have h0 : (0 : ℝ) ≤ 0.5 * ((w.width / sigmaToFwhm) * (w.width / sigmaToFwhm)) := by
      have := mul_self_nonneg (w.width / sigmaToFwhm); linarith
    rw [if_pos h0]
    have : 2 * (0.5 * ((w.width / sigmaToFwhm) * (w.width / sigmaToFwhm))) =
        (w.width / sigmaToFwhm) * (w.width / sigmaToFwhm) := by ring
    rw [this, Real.sqrt_mul_self hw]
    field_simp
  · have hu : w.getUiso = -(0.5 * ((w.width / sigmaToFwhm) * (w.width / sigmaToFwhm))) := by
      unfold ConstW.getUiso; dsimp only; rw [if_neg hw]; ring
    rw [hu]
    unfold fwhmOfUiso
    rw [← hs']
    have hw' : w.width / sigmaToFwhm < 0 := not_le.1 hw
    have hp : 0 < (w.width / sigmaToFwhm) * (w.width / sigmaToFwhm) := mul_pos_of_neg_of_neg hw' hw'
    have h0 : ¬ (0 : ℝ) ≤ -(0.5 * ((w.width / sigmaToFwhm) * (w.width / sigmaToFwhm))) := by
      intro hc; linarith
    rw [if_neg h0]
    have : 2 * -(-(0.5 * ((w.width / sigmaToFwhm) * (w.width / sigmaToFwhm)))) =
        (-(w.width / sigmaToFwhm)) * (-(w.width / sigmaToFwhm)) := by ring
    rw [this, Real.sqrt_mul_self (by linarith)]
    field_simp

/-! ### Programs -/

theorem run_snoc (A : List Op) (op : Op) : run (A ++ [op]) = step (run A) op := by simp [run]

theorem run_append (A B : List Op) : run (A ++ B) = B.foldl step (run A) := by simp [run]

/-- **Objects do not influence each other**: an operation changes an existing object only if it sets an attribute of that object. -/
theorem others_untouched (hp : Heap) (op : Op) (h : Nat) (hh : h < hp.length) (hne : ∀ name x, op ≠ .set h name x) :
    (step hp op)[h]? = hp[h]? := by
  have hadd : ∀ c, (add hp c)[h]? = hp[h]? := by
    intro c
    cases c with
    | none => rfl
    | some o => exact List.getElem?_append_left hh
  cases op with
  | new c => exact hadd _
  | create k => exact hadd _
  | clone k => exact hadd _
  | set k name x =>
    have hk : k ≠ h := fun e => hne name x (by rw [e])
    simp only [step]
    split
    · rfl
    · exact List.getElem?_set_ne hk

/-- Setting one attribute of an object. -/
theorem step_set {hp : Heap} {h : Nat} {o : Comp} (ho : hp[h]? = some o) (name : String) (x : ℝ) :
    (step hp (.set h name x))[h]? = some ((o.set name x).getD o) := by
  have hlt : h < hp.length := by
    by_contra hc
    rw [List.getElem?_eq_none (by omega)] at ho
    cases ho
  simp only [step, ho, Option.bind_some]
  cases hs : o.set name x with
  | none => simpa using ho
  | some o' => simp [hlt]

/-- The object made by an operation: a new object of the class, a default object of the class of another one, or an object with
all data of another one. -/
theorem made (hp : Heap) (op : Op) (o : Comp) (h : step hp op = hp ++ [o]) :
    (∃ c, op = .new c ∧ Comp.new c = some o) ∨
    (∃ k s, op = .create k ∧ hp[k]? = some s ∧ Comp.new s.cls = some o) ∨
    (∃ k, op = .clone k ∧ hp[k]? = some o) := by
  have hadd : ∀ c, add hp c = hp ++ [o] → c = some o := by
    intro c hc
    cases c with
    | none => simp [add] at hc
    | some o' =>
      simp only [add] at hc
      have := List.append_cancel_left hc
      simp only [List.cons.injEq, and_true] at this
      rw [this]
  cases op with
  | new c => exact Or.inl ⟨c, rfl, hadd _ h⟩
  | create k =>
    have := hadd _ h
    cases hk : hp[k]? with
    | none => rw [hk] at this; cases this
    | some s => rw [hk] at this; exact Or.inr (Or.inl ⟨k, s, rfl, hk, this⟩)
  | clone k =>
    have := hadd _ h
    cases hk : hp[k]? with
    | none => rw [hk] at this; cases this
    | some s =>
      rw [hk] at this
      simp only [Option.map_some, Comp.clone] at this
      exact Or.inr (Or.inr ⟨k, rfl, by rw [hk, this]⟩)
  | set k name x =>
    simp only [step] at h
    exfalso
    split at h
    · have := congrArg List.length h; simp at this
    · have := congrArg List.length h; simp at this

theorem findSome_snoc {α β : Type} (f : α → Option β) (l : List α) (a : α) :
    (l ++ [a]).reverse.findSome? f = match f a with | some b => some b | none => l.reverse.findSome? f := by
  rw [List.reverse_append, List.reverse_singleton, List.singleton_append, List.findSome?_cons]
  rfl

/-- The object `h` after more operations: same class, and parameters by the last setting. -/
theorem value_from (hp : Heap) (h : Nat) (o : Comp) (ho : hp[h]? = some o) (B : List Op) :
    ∃ o', (B.foldl step hp)[h]? = some o' ∧ o'.cls = o.cls ∧
      ∀ e ∈ params o.cls, o'.get e.1 = match lastSet o.cls h e.1 B with | some v => some v | none => o.get e.1 := by
  induction B using List.reverseRec with
  | nil => exact ⟨o, ho, rfl, fun e _ => rfl⟩
  | append_singleton B op ih =>
    obtain ⟨o1, h1, hc1, hv1⟩ := ih
    rw [List.foldl_append, List.foldl_cons, List.foldl_nil]
    have hlt : h < (B.foldl step hp).length := by
      by_contra hc
      rw [List.getElem?_eq_none (by omega)] at h1
      cases h1
    by_cases hop : ∃ name x, op = .set h name x
    · obtain ⟨name, x, rfl⟩ := hop
      refine ⟨(o1.set name x).getD o1, step_set h1 name x, ?_⟩
      rcases set_effect o1 name x with ⟨hs, hf⟩ | ⟨o', q, hs, hf, hcls, hq, hget⟩
      · rw [hs, Option.getD_none]
        refine ⟨hc1, fun e he => ?_⟩
        rw [hv1 e he]
        rw [hc1] at hf
        unfold lastSet
        rw [findSome_snoc]
        simp [hf]
      · rw [hs, Option.getD_some]
        refine ⟨hcls.trans hc1, fun e he => ?_⟩
        rw [hc1] at hf hget
        rw [hget e he]
        unfold lastSet at hv1 ⊢
        rw [findSome_snoc]
        by_cases hqe : q.1 = e.1
        · simp [hf, hqe]
        · simp [hf, hqe]
          exact hv1 e he
    · have hne : ∀ name x, op ≠ .set h name x := fun n x hc => hop ⟨n, x, hc⟩
      refine ⟨o1, by rw [others_untouched _ _ _ hlt hne]; exact h1, hc1, fun e he => ?_⟩
      rw [hv1 e he]
      unfold lastSet
      rw [findSome_snoc]
      cases op with
      | set k name x =>
        have hk : k ≠ h := fun hc => hne name x (by rw [hc])
        simp [hk]
      | _ => simp

/-- **Last setting wins**: let operation `mk` make an object after program `A`.  After any further program `B` the object exists
and has its class, and each of its parameters has the number that was last set for it in `B`; without such a setting it has the value
at creation, which is the default for `new` and `create` and the value of the source at that moment for `clone`. -/
theorem last_setting_wins (A B : List Op) (mk : Op) (o : Comp) (hmk : run (A ++ [mk]) = run A ++ [o]) :
    ((run (A ++ mk :: B))[(run A).length]?.map Comp.cls = some o.cls) ∧
    ∀ e ∈ params o.cls,
      attr (run (A ++ mk :: B)) (run A).length e.1 =
        match lastSet o.cls (run A).length e.1 B with
        | some v => some v
        | none => match mk with
          | .clone k => attr (run A) k e.1
          | _ => some e.2 := by
  have hsplit : A ++ mk :: B = (A ++ [mk]) ++ B := by simp
  have hget : (run (A ++ [mk]))[(run A).length]? = some o := by rw [hmk]; simp
  obtain ⟨o', h1, h2, h3⟩ := value_from (run (A ++ [mk])) (run A).length o hget B
  rw [hsplit, run_append]
  refine ⟨by rw [h1, Option.map_some, h2], fun e he => ?_⟩
  unfold attr
  rw [h1, Option.bind_some, h3 e he]
  cases lastSet o.cls (run A).length e.1 B with
  | some v => rfl
  | none =>
    rw [run_snoc] at hmk
    rcases made _ _ _ hmk with ⟨c, rfl, hn⟩ | ⟨k, s, rfl, _, hn⟩ | ⟨k, rfl, hk⟩
    · obtain ⟨hc, hd⟩ := new_defaults hn
      rw [hc] at he
      exact hd e he
    · obtain ⟨hc, hd⟩ := new_defaults hn
      rw [hc] at he
      exact hd e he
    · simp [hk]

/-- **A clone is equal to its source**, and `create` gives a default object of the same type. -/
theorem clone_create (hp : Heap) (k : Nat) (s : Comp) (hk : hp[k]? = some s) :
    step hp (.clone k) = hp ++ [s] ∧ ∃ d, step hp (.create k) = hp ++ [d] ∧ d.cls = s.cls ∧
      ∀ e ∈ params s.cls, d.get e.1 = some e.2 := by
  refine ⟨by simp [step, hk, add, Comp.clone], ?_⟩
  have hn : ∃ d, Comp.new s.cls = some d := by cases s <;> exact ⟨_, rfl⟩
  obtain ⟨d, hd⟩ := hn
  exact ⟨d, by simp [step, hk, Comp.create, hd, add], new_defaults hd⟩

/-! ### Behaviour -/

/-- What holds for objects of a program: the derived numbers of profiles belong to the precision. -/
def Consistent : Comp → Prop
  | .gaussian g => g.half = if g.precision < 1 then Real.sqrt (-Real.log g.precision / (4 * Real.log 2)) else 0
  | .cropped c => (c.g.half = if c.g.precision < 1 then Real.sqrt (-Real.log c.g.precision / (4 * Real.log 2)) else 0) ∧
      c.scale = if c.g.precision < 1 then 1 / erf (Real.sqrt (-Real.log c.g.precision)) else 1
  | _ => True

theorem gauss_consistent (g : Gauss) (x : ℝ) :
    (g.setPrecision x).half = if (g.setPrecision x).precision < 1 then
      Real.sqrt (-Real.log (g.setPrecision x).precision / (4 * Real.log 2)) else 0 := by
  rw [gauss_precision]
  unfold Gauss.setPrecision dblEps
  dsimp only
  split <;> rfl

theorem cropped_consistent (c : Cropped) (x : ℝ) : Consistent (.cropped (c.setPrecision x)) := by
  have hg : (c.setPrecision x).g = c.g.setPrecision x := by
    unfold Cropped.setPrecision; dsimp only; split <;> rfl
  refine ⟨by rw [hg]; exact gauss_consistent _ _, ?_⟩
  rw [hg]
  unfold Cropped.setPrecision
  dsimp only
  split <;> rfl

theorem new_consistent {c : Cls} {o : Comp} (h : Comp.new c = some o) : Consistent o := by
  cases c <;> simp only [Comp.new, Option.some.injEq, reduceCtorEq] at h <;> subst h
  case gaussian => exact gauss_consistent _ _
  case cropped => exact cropped_consistent _ _
  all_goals trivial

theorem set_consistent {o o' : Comp} {name : String} {x : ℝ} (ho : Consistent o) (h : o.set name x = some o') :
    Consistent o' := by
  cases o <;> simp only [Comp.set] at h <;> (repeat' split at h) <;> first | cases h; trivial | skip
  all_goals cases h
  · exact gauss_consistent _ _
  · exact cropped_consistent _ _

theorem reachable_consistent (prog : List Op) : ∀ o ∈ run prog, Consistent o := by
  induction prog using List.reverseRec with
  | nil => intro o ho; simp [run] at ho
  | append_singleton A op ih =>
    rw [run_snoc]
    have hadd : ∀ c, (∀ o, c = some o → Consistent o) → ∀ o ∈ add (run A) c, Consistent o := by
      intro c hc o ho
      cases c with
      | none => exact ih o ho
      | some d =>
        simp only [add, List.mem_append, List.mem_singleton] at ho
        rcases ho with ho | rfl
        · exact ih o ho
        · exact hc _ rfl
    cases op with
    | new c => exact hadd _ fun o => new_consistent
    | create k =>
      refine hadd _ fun o ho => ?_
      cases hk : (run A)[k]? with
      | none => rw [hk] at ho; cases ho
      | some s => rw [hk] at ho; exact new_consistent ho
    | clone k =>
      refine hadd _ fun o ho => ?_
      cases hk : (run A)[k]? with
      | none => rw [hk] at ho; cases ho
      | some s =>
        rw [hk] at ho
        simp only [Option.map_some, Comp.clone, Option.some.injEq] at ho
        subst ho
        exact ih _ (List.mem_of_getElem? hk)
    | set k name x =>
      intro o ho
      simp only [step] at ho
      split at ho
      · exact ih o ho
      · rename_i d hd
        rcases List.mem_or_eq_of_mem_set ho with ho | rfl
        · exact ih o ho
        · cases hk : (run A)[k]? with
          | none => rw [hk] at hd; cases hd
          | some s =>
            rw [hk] at hd
            exact set_consistent (ih s (List.mem_of_getElem? hk)) hd

/-- **What an object computes depends on its class and settings only**: two objects of any programs, of one class and with equal
parameters, have the same values at all points and widths and the same bounds, whatever was set before. -/
theorem same_settings_same_behaviour (P Q : List Op) (a b : Comp) (ha : a ∈ run P) (hb : b ∈ run Q) (hc : a.cls = b.cls)
    (hv : ∀ e ∈ params a.cls, a.get e.1 = b.get e.1) (x w : ℝ) : a.value x w = b.value x w ∧ a.bounds w = b.bounds w := by
  have ca := reachable_consistent P a ha
  have cb := reachable_consistent Q b hb
  cases a <;> cases b <;> simp only [Comp.cls, reduceCtorEq] at hc <;>
    simp only [Comp.cls, params, List.mem_cons, List.not_mem_nil, or_false, forall_eq, Comp.get, if_true, Option.some.injEq] at hv
  case gaussian.gaussian g g' =>
    simp only [Consistent] at ca cb
    have : g.half = g'.half := by rw [ca, cb, hv]
    simp [Comp.value, Comp.bounds, Gauss.lo, Gauss.hi, this]
  case cropped.cropped g g' =>
    obtain ⟨h1, h2⟩ := ca
    obtain ⟨h3, h4⟩ := cb
    have e1 : g.g.half = g'.g.half := by rw [h1, h3, hv]
    have e2 : g.scale = g'.scale := by rw [h2, h4, hv]
    simp [Comp.value, Comp.bounds, Gauss.lo, Gauss.hi, Cropped.y, e1, e2]
  case constant.constant g g' => simp [Comp.value, Comp.bounds, ConstW.calculate, hv]
  case jeong.jeong j n j' n' =>
    have h1 := hv ("delta1", 0) (by simp)
    have h2 := hv ("delta2", 0) (by simp)
    have h3 := hv ("qbroad", 0) (by simp)
    have h4 := hv ("qbroad_seperable", 0) (by simp)
    simp at h1 h2 h3 h4
    have : j = j' := by cases j; cases j'; simp_all
    simp [Comp.value, Comp.bounds, this]
  all_goals simp [Comp.value, Comp.bounds, hv]

/-- The documented values: of an envelope or baseline at the distance `x`, of a profile of width `w` at the distance `x` from its centre,
of the width of a peak at distance `x` for the mean square displacement `w`; `p` are the parameters. -/
noncomputable def formula (c : Cls) (p : String → ℝ) (x w : ℝ) : ℝ :=
  match c with
  | .scale => p "scale"
  | .qresolution => if 0 < p "qdamp" then Real.exp (-(p "qdamp" * x) ^ 2 / 2) else 1
  | .spherical =>
    if p "spdiameter" ≤ 0 then 1
    else if x ≤ p "spdiameter" then 1 - 3 / 2 * (x / p "spdiameter") + 1 / 2 * (x / p "spdiameter") ^ 3 else 0
  | .stepcut => if 0 < p "stepcut" ∧ p "stepcut" < x then 0 else 1
  | .linear => p "slope" * x
  | .gaussian => if w ≤ 0 then 0 else 2 / w * Real.sqrt (Real.log 2 / Real.pi) * Real.exp (-4 * Real.log 2 * (x / w) ^ 2)
  | .constant => p "width"
  | .debyeWaller => if w < 0 then 0 else 2 * Real.sqrt (2 * Real.log 2) * Real.sqrt w
  | .jeong =>
    let corr := if x < 1 / 2 ^ 52 then 0 else 1 - p "delta1" / x - p "delta2" / x ^ 2 + (p "qbroad" * x) ^ 2
    if corr ≤ 0 then 0
    else Real.sqrt corr * (if w < 0 then 0 else 2 * Real.sqrt (2 * Real.log 2) * Real.sqrt w) + (p "qbroad_seperable" * x) ^ 2
  | _ => 0

/-- **The value of every object is the documented function of its parameters** (cropped Gaussians are described by `Peak.cropped_spec`). -/
theorem value_formula (o : Comp) (h : o.cls ≠ .cropped) (x w : ℝ) :
    o.value x w = some (formula o.cls (fun n => (o.get n).getD 0) x w) := by
  cases o with
  | scale s => rfl
  | qresolution q => simp [Comp.value, formula, Comp.cls, Comp.get, Envelope.qResolution, mul_comm]
  | spherical d =>
    simp only [Comp.value, formula, Comp.cls, Comp.get, Envelope.spherical, if_true, Option.getD_some, Option.some.injEq]
    by_cases h0 : d ≤ 0
    · rw [if_pos h0, if_pos h0]
    · rw [if_neg h0, if_neg h0]
      by_cases h1 : d < x
      · rw [if_pos h1, if_neg (not_le.2 h1)]
      · rw [if_neg h1, if_pos (not_lt.1 h1)]; norm_num
  | stepcut c => simp [Comp.value, formula, Comp.cls, Comp.get, Envelope.stepCut]
  | zero => rfl
  | linear s => simp [Comp.value, formula, Comp.cls, Comp.get, Envelope.linearBaseline]
  | gaussian g =>
    simp only [Comp.value, formula, Comp.cls, gaussY, Option.some.injEq]
    split
    · rfl
    · rw [show (-4 * Real.log 2 * (x / w) * (x / w) : ℝ) = -4 * Real.log 2 * (x / w) ^ 2 by ring]; ring
  | cropped c => exact absurd rfl h
  | constant c => rfl
  | debyeWaller n =>
    simp [Comp.value, formula, Comp.cls, dwCalculate, sigmaToFwhm]
  | jeong j n =>
    simp [Comp.value, formula, Comp.cls, Comp.get, Jeong.calculate, Jeong.ratio, dwCalculate, sigmaToFwhm, dblEps]

/-- **A ticker moves exactly when a setting changes a parameter**, by one click, in peak profiles and peak width models. -/
theorem ticker_iff_changed {o o' : Comp} {name : String} {x : ℝ} (h : o.set name x = some o') {n : Nat} (hn : o.clicks = some n) :
    ((∀ e ∈ params o.cls, o'.get e.1 = o.get e.1) → o'.clicks = some n) ∧
    ((∃ e ∈ params o.cls, o'.get e.1 ≠ o.get e.1) → o'.clicks = some (n + 1)) := by
  have hg : ∀ (g : Gauss) (y : ℝ), (g.setPrecision y).clicks = if g.precision ≠ max y (1 / 2 ^ 52) then g.clicks + 1 else g.clicks := by
    intro g y
    unfold Gauss.setPrecision Gauss.basePrecision dblEps
    dsimp only
    split <;> rfl
  have hc : ∀ (c : Cropped) (y : ℝ), (c.setPrecision y).g = c.g.setPrecision y := by
    intro c y
    unfold Cropped.setPrecision; dsimp only; split <;> rfl
  cases o <;> simp only [Comp.clicks, Option.some.injEq, reduceCtorEq] at hn
  case gaussian g =>
    subst hn
    simp only [Comp.set] at h
    split at h
    · cases h
      simp only [Comp.cls, params, List.mem_singleton, forall_eq, exists_eq_left, Comp.get, if_true, Comp.clicks,
        gauss_precision, hg, Option.some.injEq]
      constructor
      · intro he; rw [if_neg (by rw [he]; simp)]
      · intro he; rw [if_pos (fun hc => he (by rw [hc]))]
    · cases h
  case cropped g =>
    subst hn
    simp only [Comp.set] at h
    split at h
    · cases h
      simp only [Comp.cls, params, List.mem_singleton, forall_eq, exists_eq_left, Comp.get, if_true, Comp.clicks,
        hc, gauss_precision, hg, Option.some.injEq]
      constructor
      · intro he; rw [if_neg (by rw [he]; simp)]
      · intro he; rw [if_pos (fun hc => he (by rw [hc]))]
    · cases h
  case constant w =>
    subst hn
    have hw : ∀ y : ℝ, o' = .constant (w.setWidth y) →
        ((∀ e ∈ params (Comp.constant w).cls, o'.get e.1 = (Comp.constant w).get e.1) → o'.clicks = some w.clicks) ∧
        ((∃ e ∈ params (Comp.constant w).cls, o'.get e.1 ≠ (Comp.constant w).get e.1) → o'.clicks = some (w.clicks + 1)) := by
      intro y hy
      subst hy
      simp only [Comp.cls, params, List.mem_singleton, forall_eq, exists_eq_left, Comp.get, if_true, Comp.clicks,
        ConstW.setWidth, Option.some.injEq]
      constructor
      · intro he; rw [if_neg (by rw [he]; simp)]
      · intro he; rw [if_pos (fun hc => he (by rw [hc]))]
    simp only [Comp.set] at h
    split at h
    · cases h; exact hw _ rfl
    split at h
    · cases h; exact hw _ rfl
    split at h
    · cases h; exact hw _ rfl
    · cases h
  case debyeWaller m => simp [Comp.set] at h
  case jeong j m =>
    subst hn
    simp only [Comp.set] at h
    simp only [Comp.cls, params, List.mem_cons, List.not_mem_nil, or_false]
    split at h
    · cases h
      by_cases he : j.delta1 = x
      · subst he; simp [Comp.get, Comp.clicks, clickIf]
      · have := Ne.symm he; simp [Comp.get, Comp.clicks, clickIf, he, this]
    split at h
    · cases h
      by_cases he : j.delta2 = x
      · subst he; simp [Comp.get, Comp.clicks, clickIf]
      · have := Ne.symm he; simp [Comp.get, Comp.clicks, clickIf, he, this]
    split at h
    · cases h
      by_cases he : j.qbroad = x
      · subst he; simp [Comp.get, Comp.clicks, clickIf]
      · have := Ne.symm he; simp [Comp.get, Comp.clicks, clickIf, he, this]
    split at h
    · cases h
      by_cases he : j.qbroadSep = x
      · subst he; simp [Comp.get, Comp.clicks, clickIf]
      · have := Ne.symm he; simp [Comp.get, Comp.clicks, clickIf, he, this]
    · cases h

/-! ### Registration -/

/-- All registered classes. -/
def allClasses : List Cls :=
  [.scale, .qresolution, .spherical, .stepcut, .zero, .linear, .gaussian, .cropped, .constant, .debyeWaller, .jeong,
    .constRadii, .xray, .electron, .neutron, .electronNumber]

/-- The names under which a class can be created: its type and, for scattering factor tables, its radiation type. -/
def Cls.names (c : Cls) : List String := c.typ :: c.radiation.toList

theorem mem_allClasses (c : Cls) : c ∈ allClasses := by cases c <;> decide

/-- Names of different classes of one base differ. -/
theorem names_distinct (c d : Cls) (hb : c.base = d.base) (n : String) (hc : n ∈ c.names) (hd : n ∈ d.names) : c = d := by
  have h : ∀ c ∈ allClasses, ∀ d ∈ allClasses, c.base = d.base → ∀ n ∈ c.names, n ∈ d.names → c = d := by decide +kernel
  exact h c (mem_allClasses c) d (mem_allClasses d) hb n hc hd

/-- What the registries hold after some initialisers. -/
def RegOk (done : List Cls) (rs : Regs) : Prop :=
  ∀ b n, (∀ c ∈ done, c.base = b → n ∈ c.names → (AssocMap.find (rs b).reg n).map (·.type) = some c.typ) ∧
    ((∀ c ∈ done, c.base = b → n ∉ c.names) → AssocMap.find (rs b).reg n = none)

theorem typ_ne_radiation (c : Cls) (r : String) (h : c.radiation = some r) : c.typ ≠ r := by
  cases c <;> simp [Cls.radiation] at h <;> subst h <;> decide

theorem regOne_ok (done : List Cls) (rs : Regs) (h : RegOk done rs) (c : Cls) (hc : c ∉ done) :
    (regOne rs c).2 = true ∧ RegOk (c :: done) (regOne rs c).1 := by
  have hfree : ∀ n ∈ c.names, AssocMap.find (rs c.base).reg n = none := by
    intro n hn
    refine (h c.base n).2 fun d hd hb hdn => hc ?_
    rw [names_distinct c d hb.symm n hn hdn]; exact hd
  have h1 : AssocMap.find (rs c.base).reg c.typ = none := hfree _ (by simp [Cls.names])
  -- the registry of the base
  have key : ∃ r' : Registry.Reg, (regOne rs c).1 = (fun b => if b = c.base then r' else rs b) ∧ (regOne rs c).2 = true ∧
      ∀ n, AssocMap.find r'.reg n = if n ∈ c.names then some ⟨(rs c.base).next, c.typ⟩ else AssocMap.find (rs c.base).reg n := by
    cases hr : c.radiation with
    | none =>
      refine ⟨_, rfl, ?_, ?_⟩
      · simp only [regOne, hr, Registry.registerThisType, h1, Option.isSome_none, Bool.false_eq_true, if_false]
      · intro n
        simp only [hr, Registry.registerThisType, h1, Option.isSome_none, Bool.false_eq_true, if_false, Cls.names,
          Option.toList_none, List.mem_singleton]
        rw [AssocMap.find_put]
    | some rad =>
      have h2 : AssocMap.find (rs c.base).reg rad = none := hfree _ (by simp [Cls.names, hr])
      have hne : rad ≠ c.typ := fun e => typ_ne_radiation c rad hr e.symm
      have hs : Registry.sftRegister (rs c.base) c.typ rad =
          (⟨AssocMap.put (AssocMap.put (rs c.base).reg c.typ ⟨(rs c.base).next, c.typ⟩) rad ⟨(rs c.base).next, c.typ⟩,
            (rs c.base).next + 1⟩, true) := by
        simp only [Registry.sftRegister, Registry.registerThisType, h1, Option.isSome_none, Bool.false_eq_true, if_false,
          Registry.aliasType, AssocMap.find_put, if_true]
        rw [if_neg hne, h2]
      refine ⟨_, rfl, ?_, ?_⟩
      · simp only [regOne, hr, hs]
      · intro n
        simp only [hr, hs, Cls.names, Option.toList_some, List.mem_cons, List.not_mem_nil, or_false]
        rw [AssocMap.find_put, AssocMap.find_put]
        by_cases ha : n = rad <;> by_cases hb : n = c.typ <;> simp [ha, hb]
  obtain ⟨r', hr1, hr2, hr3⟩ := key
  refine ⟨hr2, fun b n => ⟨fun d hd hb hn => ?_, fun hno => ?_⟩⟩
  · rw [hr1]
    rcases List.mem_cons.1 hd with rfl | hd
    · simp only [← hb, if_true]
      rw [hr3, if_pos hn]; rfl
    · have old := (h b n).1 d hd hb hn
      by_cases hbc : b = c.base
      · have hnn : n ∉ c.names := by
          intro hcn
          rw [hbc, hfree n hcn] at old
          cases old
        simp only [hbc, if_true]
        rw [hr3, if_neg hnn, ← hbc]; exact old
      · simp only [hbc, if_false]; exact old
  · rw [hr1]
    have old := (h b n).2 fun d hd hb => hno d (List.mem_cons_of_mem _ hd) hb
    by_cases hbc : b = c.base
    · have hnn := hno c (by simp) hbc.symm
      simp only [hbc, if_true]
      rw [hr3, if_neg hnn, ← hbc]; exact old
    · simp only [hbc, if_false]; exact old

/-- **All classes are registered, in whatever order the source files are initialised**: no registration throws; after it, in the
registry of each base, the names of a class give an object of that type, and no other name is known. -/
theorem registered (order : List Cls) (hp : order.Perm allClasses) :
    (regAll order).2 = true ∧ ∀ b n,
      (∀ c : Cls, c.base = b → n ∈ c.names → Registry.createByType ((regAll order).1 b) n = some c.typ) ∧
      ((∀ c : Cls, c.base = b → n ∉ c.names) → Registry.createByType ((regAll order).1 b) n = none) := by
  have hnd : order.Nodup := hp.nodup_iff.2 (by decide)
  have main : ∀ (l done : List Cls) (rs : Regs) (ok : Bool), RegOk done rs → (∀ c ∈ l, c ∉ done) → l.Nodup →
      ∃ rs', l.foldl (fun s c => ((regOne s.1 c).1, s.2 && (regOne s.1 c).2)) (rs, ok) = (rs', ok) ∧
        RegOk (l.reverse ++ done) rs' := by
    intro l
    induction l with
    | nil => intro done rs ok h _ _; exact ⟨rs, rfl, h⟩
    | cons c l ih =>
      intro done rs ok h hd hn
      obtain ⟨h1, h2⟩ := regOne_ok done rs h c (hd c (by simp))
      obtain ⟨rs', h3, h4⟩ := ih (c :: done) _ ok h2 (by
        intro d hdl hc
        rcases List.mem_cons.1 hc with rfl | hc
        · exact (List.nodup_cons.1 hn).1 hdl
        · exact hd d (List.mem_cons_of_mem _ hdl) hc) (List.nodup_cons.1 hn).2
      refine ⟨rs', ?_, by simpa using h4⟩
      rw [List.foldl_cons, h1, Bool.and_true]
      exact h3
  obtain ⟨rs', h1, h2⟩ := main order [] (fun _ => ⟨[], 0⟩) true (fun b n => ⟨by simp, fun _ => rfl⟩) (by simp) hnd
  have hreg : regAll order = (rs', true) := h1
  rw [hreg]
  refine ⟨rfl, fun b n => ⟨fun c hb hn => ?_, fun hno => ?_⟩⟩
  · refine (h2 b n).1 c ?_ hb hn
    rw [List.append_nil, List.mem_reverse, hp.mem_iff]
    exact mem_allClasses c
  · have := (h2 b n).2 fun c _ hb => hno c hb
    unfold Registry.createByType
    show (AssocMap.find (rs' b).reg n).map _ = none
    rw [this]; rfl

/-! ### Examples -/

/-- Initialisation in another order. -/
example : (allClasses.reverse).Perm allClasses := List.reverse_perm _

example : Registry.createByType ((regAll allClasses.reverse).1 .sft) "EN" = some "electronnumber" :=
  ((registered _ (List.reverse_perm _)).2 .sft "EN").1 .electronNumber rfl (by decide)

example : Registry.createByType ((regAll allClasses).1 .envelope) "zero" = none :=
  ((registered _ (List.Perm.refl _)).2 .envelope "zero").2 (by
    intro c; cases c <;> decide)

/-- A program: two width models, the second a clone; later settings of the first do not reach it. -/
noncomputable def exA : List Op := [.new .constant, .set 0 "width" 0.25]
noncomputable def exB : List Op := [.set 0 "width" 7, .set 1 "uisowidth" 0, .set 1 "slope" 3, .create 1]

theorem exA_run : run exA = [.constant ⟨0.25, 1⟩] := by
  have h : ConstW.setWidth ⟨0, 0⟩ (0.25 : ℝ) = ⟨0.25, 1⟩ := by
    unfold ConstW.setWidth; rw [if_pos (by norm_num)]
  simp [exA, run, step, add, Comp.new, Comp.set, h]

theorem exA_clone : run (exA ++ [.clone 0]) = run exA ++ [.constant ⟨0.25, 1⟩] := by
  rw [run_snoc, exA_run]; simp [step, add, Comp.clone]

example : attr (run (exA ++ .clone 0 :: exB)) 1 "width" = some (fwhmOfUiso 0) := by
  have h := (last_setting_wins exA exB (.clone 0) _ exA_clone).2 ("width", 0) (by simp [params, Comp.cls])
  have hl : (run exA).length = 1 := by rw [exA_run]; rfl
  rw [hl] at h
  rw [h]
  simp [lastSet, exB, effect, Comp.cls]

/-- Without a setting of its own the clone keeps the value of the source at the time of cloning. -/
example : attr (run (exA ++ [.clone 0, .set 0 "width" 7])) 1 "width" = some 0.25 := by
  have h := (last_setting_wins exA [.set 0 "width" 7] (.clone 0) _ exA_clone).2 ("width", 0) (by simp [params, Comp.cls])
  have hl : (run exA).length = 1 := by rw [exA_run]; rfl
  rw [hl] at h
  rw [h]
  simp [lastSet, attr, exA_run, Comp.get]

/-- The ticker theorem in both cases. -/
example : ∃ o', (Comp.constant ⟨0.25, 1⟩).set "width" 0.25 = some o' ∧ o'.clicks = some 1 := by
  refine ⟨_, by simp [Comp.set]; rfl, ?_⟩
  refine (ticker_iff_changed (o := .constant ⟨0.25, 1⟩) (name := "width") (x := 0.25) (by simp [Comp.set]) rfl).1 ?_
  simp [Comp.cls, params, Comp.get, ConstW.setWidth]

example : ∃ o', (Comp.constant ⟨0.25, 1⟩).set "width" 0.5 = some o' ∧ o'.clicks = some 2 := by
  refine ⟨_, by simp [Comp.set]; rfl, ?_⟩
  refine (ticker_iff_changed (o := .constant ⟨0.25, 1⟩) (name := "width") (x := 0.5) (by simp [Comp.set]) rfl).2
    ⟨("width", 0), by simp [Comp.cls, params], ?_⟩
  simp [Comp.get, ConstW.setWidth]
  norm_num

/-- Profiles with different histories and the same precision. -/
example (x w : ℝ) : ∀ a ∈ run [.new .cropped, .set 0 "peakprecision" 2, .set 0 "peakprecision" 0.5],
    ∀ b ∈ run [.new .cropped, .set 0 "peakprecision" 0.5], a.value x w = b.value x w := by
  intro a ha b hb
  have ha' := ha
  have hb' := hb
  simp [run, step, add, Comp.new, Comp.set] at ha hb
  refine (same_settings_same_behaviour _ _ a b ha' hb' (by rw [ha, hb]; rfl) ?_ x w).1
  rw [ha, hb]
  simp [Comp.cls, params, Comp.get, cropped_precision]

end Verif.Components
