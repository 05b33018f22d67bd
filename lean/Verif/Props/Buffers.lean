import Verif.Model.Buffers
import Verif.Props.Lattice
import Mathlib.Tactic.LinearCombination
/-
C71.  Results that are returned by reference.
-/
namespace Verif.Buffers
open Verif.R3 Verif.Lattice

set_option linter.unusedSimpArgs false

/-! ## Specification: what the expressions mean -/

/-- The mathematical function. -/
noncomputable def LFn.value : LFn → V3 → V3
  | .cartesian L, u => L.cartesian u
  | .fractional L, u => L.fractional u
  | .ucvCartesian L, u => L.ucvCartesian u
  | .ucvFractional, u => Lattice.ucvFractional u

/-- The mathematical function. -/
noncomputable def Fn.value : Fn → V3 → V3
  | .mulRight M, u => M.mulVec u
  | .mulLeft M, u => M3.vecMul u M
  | .floor, u => u.floor
  | .lat f, u => f.value u

/-- The meaning of an expression for given values of the variables. -/
noncomputable def Expr.value (x : Nat → V3) : Expr → V3
  | .var n => x n
  | .app f e => f.value (e.value x)
  | .appOther f n => f.value (x n)

/-- The outermost call is `R3::mxvecproduct(M, u)`. -/
def Expr.isRight : Expr → Prop
  | .app (.mulRight _) _ => True
  | _ => False

/-- The outermost call is `R3::mxvecproduct(u, M)`. -/
def Expr.isLeft : Expr → Prop
  | .app (.mulLeft _) _ => True
  | _ => False

/-- The functions that use `R3::mxvecproduct(u, M)` on their argument. -/
def Fn.usesLeft : Fn → Prop
  | .mulLeft _ => True
  | .lat (.cartesian _) => True
  | .lat (.fractional _) => True
  | .lat (.ucvCartesian _) => True
  | _ => False

/-- The functions that use `R3::mxvecproduct(M, u)` on their argument. -/
def Fn.usesRight : Fn → Prop
  | .mulRight _ => True
  | _ => False

/-- Nowhere is the reference returned by one form of `R3::mxvecproduct` passed directly to a function that uses the same form. -/
def Expr.Safe : Expr → Prop
  | .var _ => True
  | .app f e => e.Safe ∧ ¬(f.usesLeft ∧ e.isLeft) ∧ ¬(f.usesRight ∧ e.isRight)
  | .appOther _ _ => True

/-! ## Single calls -/

@[simp] theorem set_same (m : Mem) (b : Buf) (v : V3) : m.set b v b = v := if_pos rfl

theorem set_ne (m : Mem) {b b' : Buf} (v : V3) (h : b' ≠ b) : m.set b v b' = m b' := if_neg h

/-- The static object of which a reference is returned. -/
def LFn.res : LFn → Buf
  | .cartesian _ => .cart
  | .fractional _ => .frac
  | .ucvCartesian _ => .ucart
  | .ucvFractional => .ufrac

/-- The static object of which a reference is returned. -/
def Fn.res : Fn → Buf
  | .mulRight _ => .mxRight
  | .mulLeft _ => .mxLeft
  | .floor => .floor
  | .lat f => f.res

theorem mxRight_spec (M : M3) (u : Buf) (m : Mem) (h : u ≠ .mxRight) :
    mxRight M u m = (m.set .mxRight (M.mulVec (m u)), .mxRight) := by
  unfold mxRight
  simp only [set_same, set_ne _ _ h, Prod.mk.injEq, and_true]
  funext b
  by_cases hb : b = .mxRight
  · subst hb; simp [M3.mulVec]
  · simp [set_ne _ _ hb]

theorem mxLeft_spec (M : M3) (u : Buf) (m : Mem) (h : u ≠ .mxLeft) :
    mxLeft u M m = (m.set .mxLeft (M3.vecMul (m u) M), .mxLeft) := by
  unfold mxLeft
  simp only [set_same, set_ne _ _ h, Prod.mk.injEq, and_true]
  funext b
  by_cases hb : b = .mxLeft
  · subst hb; simp [M3.vecMul]
  · simp [set_ne _ _ hb]

/-- `R3::floor` is right even on its own result. -/
theorem floorB_spec (u : Buf) (m : Mem) : floorB u m = (m.set .floor (V3.floor (m u)), .floor) := by
  unfold floorB
  by_cases h : u = .floor
  · subst h
    simp only [set_same, Prod.mk.injEq, and_true]
    funext b
    by_cases hb : b = .floor
    · subst hb; simp [V3.floor]
    · simp [set_ne _ _ hb]
  · simp only [set_same, set_ne _ _ h, Prod.mk.injEq, and_true]
    funext b
    by_cases hb : b = .floor
    · subst hb; simp [V3.floor]
    · simp [set_ne _ _ hb]

theorem cartesianB_spec (L : Lat) (u : Buf) (m : Mem) (h : u ≠ .mxLeft) :
    cartesianB L u m = ((m.set .mxLeft (L.cartesian (m u))).set .cart (L.cartesian (m u)), .cart) := by
  unfold cartesianB
  rw [mxLeft_spec _ _ _ h]
  simp only [set_same]
  rfl

theorem fractionalB_spec (L : Lat) (u : Buf) (m : Mem) (h : u ≠ .mxLeft) :
    fractionalB L u m = ((m.set .mxLeft (L.fractional (m u))).set .frac (L.fractional (m u)), .frac) := by
  unfold fractionalB
  rw [mxLeft_spec _ _ _ h]
  simp only [set_same]
  rfl

/-- `V3.floor` of integers. -/
theorem floor_floor (u : V3) : u.floor.floor = u.floor := by simp [V3.floor]

theorem ucvFractionalB_spec (u : Buf) (m : Mem) (hu : u ≠ .floor) :
    ucvFractionalB u m = ((m.set .floor (V3.floor (m u))).set .ufrac (Lattice.ucvFractional (m u)), .ufrac) := by
  unfold ucvFractionalB
  rw [floorB_spec]
  simp only [set_same, Prod.mk.injEq, and_true]
  funext b
  by_cases hb : b = .ufrac
  · subst hb; simp [Lattice.ucvFractional, set_ne _ _ hu]
  · simp [set_ne _ _ hb]

theorem ucvFractionalB_floor (m : Mem) :
    ucvFractionalB .floor m = ((m.set .floor (V3.floor (m .floor))).set .ufrac (Lattice.ucvFractional (V3.floor (m .floor))), .ufrac) := by
  unfold ucvFractionalB
  rw [floorB_spec]
  simp only [set_same, Prod.mk.injEq, and_true]
  funext b
  by_cases hb : b = .ufrac
  · subst hb; simp [Lattice.ucvFractional, floor_floor]
  · simp [set_ne _ _ hb]

/-- The static objects that a call overwrites. -/
def LFn.touched : LFn → List Buf
  | .cartesian _ => [.mxLeft, .cart]
  | .fractional _ => [.mxLeft, .frac]
  | .ucvCartesian _ => [.mxLeft, .frac, .floor, .ufrac, .cart, .ucart]
  | .ucvFractional => [.floor, .ufrac]

/-- The static objects that a call overwrites. -/
def Fn.touched : Fn → List Buf
  | .mulRight _ => [.mxRight]
  | .mulLeft _ => [.mxLeft]
  | .floor => [.floor]
  | .lat f => f.touched

theorem ucvFractional_buf (u : Buf) (m : Mem) (hf : u = .floor → (m u).floor = m u) :
    ucvFractionalB u m = ((m.set .floor (V3.floor (m u))).set .ufrac (Lattice.ucvFractional (m u)), .ufrac) := by
  by_cases hu : u = .floor
  · have := hf hu; subst hu
    rw [ucvFractionalB_floor, this]
  · exact ucvFractionalB_spec u m hu

/-- One call: the reference that is returned, the value behind it, and what is left alone. -/
theorem call_spec (f : Fn) (u : Buf) (m : Mem) (hl : ¬(f.usesLeft ∧ u = .mxLeft)) (hr : ¬(f.usesRight ∧ u = .mxRight))
    (hf : u = .floor → (m u).floor = m u) :
    (f.call u m).2 = f.res ∧ (f.call u m).1 f.res = f.value (m u) ∧ ∀ b, b ∉ f.touched → (f.call u m).1 b = m b := by
  cases f with
  | mulRight M =>
    have h : u ≠ .mxRight := fun e => hr ⟨trivial, e⟩
    simp only [Fn.call, mxRight_spec M u m h, Fn.res, Fn.value, Fn.touched, List.mem_singleton]
    exact ⟨trivial, set_same .., fun b hb => set_ne _ _ hb⟩
  | mulLeft M =>
    have h : u ≠ .mxLeft := fun e => hl ⟨trivial, e⟩
    simp only [Fn.call, mxLeft_spec M u m h, Fn.res, Fn.value, Fn.touched, List.mem_singleton]
    exact ⟨trivial, set_same .., fun b hb => set_ne _ _ hb⟩
  | floor =>
    simp only [Fn.call, floorB_spec, Fn.res, Fn.value, Fn.touched, List.mem_singleton]
    exact ⟨trivial, set_same .., fun b hb => set_ne _ _ hb⟩
  | lat f =>
    cases f with
    | cartesian L =>
      have h : u ≠ .mxLeft := fun e => hl ⟨trivial, e⟩
      simp only [Fn.call, LFn.call, cartesianB_spec L u m h, Fn.res, LFn.res, Fn.value, LFn.value, Fn.touched, LFn.touched,
        List.mem_cons, List.not_mem_nil, or_false, not_or]
      exact ⟨trivial, set_same .., fun b hb => by rw [set_ne _ _ hb.2, set_ne _ _ hb.1]⟩
    | fractional L =>
      have h : u ≠ .mxLeft := fun e => hl ⟨trivial, e⟩
      simp only [Fn.call, LFn.call, fractionalB_spec L u m h, Fn.res, LFn.res, Fn.value, LFn.value, Fn.touched, LFn.touched,
        List.mem_cons, List.not_mem_nil, or_false, not_or]
      exact ⟨trivial, set_same .., fun b hb => by rw [set_ne _ _ hb.2, set_ne _ _ hb.1]⟩
    | ucvFractional =>
      simp only [Fn.call, LFn.call, ucvFractional_buf u m hf, Fn.res, LFn.res, Fn.value, LFn.value, Fn.touched, LFn.touched,
        List.mem_cons, List.not_mem_nil, or_false, not_or]
      exact ⟨trivial, set_same .., fun b hb => by rw [set_ne _ _ hb.2, set_ne _ _ hb.1]⟩
    | ucvCartesian L =>
      have h : u ≠ .mxLeft := fun e => hl ⟨trivial, e⟩
      simp only [Fn.call, LFn.call, ucvCartesianB, fractionalB_spec L u m h, ucvFractional_buf .frac _ (fun e => nomatch e),
        cartesianB_spec L .ufrac _ (fun e => nomatch e), set_same, Fn.res, LFn.res, Fn.value, LFn.value, Fn.touched, LFn.touched,
        List.mem_cons, List.not_mem_nil, or_false, not_or]
      refine ⟨trivial, rfl, fun b hb => ?_⟩
      obtain ⟨h1, h2, h3, h4, h5, h6⟩ := hb
      rw [set_ne _ _ h6, set_ne _ _ h5, set_ne _ _ h1, set_ne _ _ h4, set_ne _ _ h3, set_ne _ _ h2, set_ne _ _ h1]

/-- The template versions. -/
theorem callOther_spec (f : LFn) (n : Nat) (m : Mem) :
    (f.callOther n m).2 = f.res ∧ (f.callOther n m).1 f.res = f.value (m (.var n)) ∧
      ∀ b, b ∉ f.touched → b ≠ f.copyBuf → (f.callOther n m).1 b = m b := by
  have hc : Buf.var n ≠ f.copyBuf := by cases f <;> exact fun e => nomatch e
  have hm : f.callOther n m = f.call f.copyBuf (m.set f.copyBuf (m (.var n))) := by
    unfold LFn.callOther
    simp only [set_same, set_ne _ _ hc]
    congr 1
    funext b
    by_cases hb : b = f.copyBuf
    · subst hb; simp
    · simp [set_ne _ _ hb]
  have hl : f.copyBuf ≠ .mxLeft := by cases f <;> exact fun e => nomatch e
  have hr : f.copyBuf ≠ .mxRight := by cases f <;> exact fun e => nomatch e
  have hf : f.copyBuf ≠ .floor := by cases f <;> exact fun e => nomatch e
  obtain ⟨h1, h2, h3⟩ := call_spec (.lat f) f.copyBuf (m.set f.copyBuf (m (.var n))) (fun h => hl h.2) (fun h => hr h.2)
    (fun h => absurd h hf)
  rw [set_same] at h2
  rw [hm]
  exact ⟨h1, h2, fun b hb hc => (h3 b hb).trans (set_ne _ _ hc)⟩

/-! ## Nested calls -/

/-- The object that the result of an expression refers to. -/
def Expr.buf : Expr → Buf
  | .var n => .var n
  | .app f _ => f.res
  | .appOther f _ => f.res

/-- The static objects that the evaluation of an expression overwrites. -/
def Expr.touched : Expr → List Buf
  | .var _ => []
  | .app f e => e.touched ++ f.touched
  | .appOther f _ => f.copyBuf :: f.touched

theorem buf_left {e : Expr} (h : e.buf = .mxLeft) : e.isLeft := by
  cases e with
  | var n => exact nomatch h
  | app f e =>
    cases f with
    | mulLeft M => exact trivial
    | lat f => cases f <;> exact nomatch h
    | _ => exact nomatch h
  | appOther f n => cases f <;> exact nomatch h

theorem buf_right {e : Expr} (h : e.buf = .mxRight) : e.isRight := by
  cases e with
  | var n => exact nomatch h
  | app f e =>
    cases f with
    | mulRight M => exact trivial
    | lat f => cases f <;> exact nomatch h
    | _ => exact nomatch h
  | appOther f n => cases f <;> exact nomatch h

theorem buf_floor {e : Expr} (h : e.buf = .floor) (x : Nat → V3) : (e.value x).floor = e.value x := by
  cases e with
  | var n => exact nomatch h
  | app f e =>
    cases f with
    | floor => exact floor_floor _
    | lat f => cases f <;> exact nomatch h
    | _ => exact nomatch h
  | appOther f n => cases f <;> exact nomatch h

theorem var_untouched (e : Expr) (n : Nat) : Buf.var n ∉ e.touched := by
  induction e with
  | var k => exact List.not_mem_nil
  | app f e ih =>
    unfold Expr.touched
    rw [List.mem_append, not_or]
    refine ⟨ih, ?_⟩
    cases f with
    | lat f => cases f <;> simp [Fn.touched, LFn.touched]
    | _ => simp [Fn.touched]
  | appOther f k => cases f <;> simp [Expr.touched, LFn.touched, LFn.copyBuf]

theorem eval_spec (e : Expr) (hs : e.Safe) (m : Mem) :
    (e.eval m).2 = e.buf ∧ (e.eval m).1 e.buf = e.value (fun n => m (.var n)) ∧ ∀ b, b ∉ e.touched → (e.eval m).1 b = m b := by
  induction e generalizing m with
  | var n => exact ⟨rfl, rfl, fun _ _ => rfl⟩
  | app f e ih =>
    obtain ⟨h1, h2, h3⟩ := ih hs.1 m
    have hl : ¬(f.usesLeft ∧ e.buf = .mxLeft) := fun h => hs.2.1 ⟨h.1, buf_left h.2⟩
    have hr : ¬(f.usesRight ∧ e.buf = .mxRight) := fun h => hs.2.2 ⟨h.1, buf_right h.2⟩
    obtain ⟨k1, k2, k3⟩ := call_spec f e.buf (e.eval m).1 hl hr (fun h => by rw [h2]; exact buf_floor h _)
    have he : (Expr.app f e).eval m = f.call e.buf (e.eval m).1 := by
      change f.call (e.eval m).2 (e.eval m).1 = _
      rw [h1]
    rw [he]
    refine ⟨k1, k2.trans (by rw [h2]; rfl), fun b hb => ?_⟩
    unfold Expr.touched at hb
    rw [List.mem_append, not_or] at hb
    rw [k3 b hb.2, h3 b hb.1]
  | appOther f n =>
    obtain ⟨h1, h2, h3⟩ := callOther_spec f n m
    refine ⟨h1, h2, fun b hb => ?_⟩
    unfold Expr.touched at hb
    rw [List.mem_cons, not_or] at hb
    exact h3 b hb.2 hb.1

/-- C71. The reference that nested calls return gives their value, when it is read before the next call; the variables of the caller
do not change. -/
theorem nested_calls (e : Expr) (hs : e.Safe) (m : Mem) :
    (e.eval m).1 (e.eval m).2 = e.value (fun n => m (.var n)) ∧ ∀ n, (e.eval m).1 (.var n) = m (.var n) := by
  obtain ⟨h1, h2, h3⟩ := eval_spec e hs m
  exact ⟨by rw [h1, h2], fun n => h3 _ (var_untouched e n)⟩

/-- C71. Programs that copy every result: after any sequence of assignments the variables hold what the assignments mean. -/
theorem copied_results (as : List Assign) (hs : ∀ a ∈ as, a.rhs.Safe) (m : Mem) (n : Nat) :
    (as.foldl (fun m a => a.exec m) m) (.var n) =
      (as.foldl (fun (x : Nat → V3) a => fun k => if k = a.target then a.rhs.value x else x k) (fun k => m (.var k))) n := by
  induction as generalizing m with
  | nil => rfl
  | cons a as ih =>
    rw [List.foldl_cons, List.foldl_cons, ih (fun b hb => hs b (List.mem_cons_of_mem _ hb))]
    have hx : (fun k => a.exec m (.var k)) =
        fun k => if k = a.target then a.rhs.value (fun k => m (.var k)) else (fun k => m (.var k)) k := by
      funext k
      obtain ⟨h1, h2⟩ := nested_calls a.rhs (hs a (List.mem_cons_self ..)) m
      by_cases hk : k = a.target
      · subst hk
        simp only [if_pos]
        unfold Assign.exec
        rw [set_same, h1]
      · rw [if_neg hk]
        unfold Assign.exec
        dsimp only
        rw [set_ne _ _ (by simpa using hk), h2]
    rw [hx]

/-- The results that the evaluation of an expression overwrites: those of the functions that it calls, directly or inside others. -/
def Expr.overwrites : Expr → List Buf
  | .var _ => []
  | .app f e => e.overwrites ++ f.touched
  | .appOther f _ => f.touched

theorem touched_cases (e : Expr) (b : Buf) (h : b ∈ e.touched) : b ∈ e.overwrites ∨ ∃ f : LFn, b = f.copyBuf := by
  induction e with
  | var n => exact Or.inl h
  | app f e ih =>
    unfold Expr.touched at h
    unfold Expr.overwrites
    rw [List.mem_append] at h ⊢
    rcases h with h | h
    · rcases ih h with h | h
      · exact Or.inl (Or.inl h)
      · exact Or.inr h
    · exact Or.inl (Or.inr h)
  | appOther f n =>
    unfold Expr.touched at h
    rw [List.mem_cons] at h
    rcases h with h | h
    · exact Or.inr ⟨f, h⟩
    · exact Or.inl h

theorem buf_not_copy (e : Expr) (f : LFn) : e.buf ≠ f.copyBuf := by
  cases e with
  | var n => cases f <;> exact fun h => nomatch h
  | app g e =>
    cases g with
    | lat g => cases g <;> cases f <;> exact fun h => nomatch h
    | _ => cases f <;> exact fun h => nomatch h
  | appOther g n => cases g <;> cases f <;> exact fun h => nomatch h

/-- C71. A reference that is kept stays valid during other calls that do not use its static object. -/
theorem kept_reference (e e' : Expr) (hs : e.Safe) (hs' : e'.Safe) (m : Mem) (hk : e.buf ∉ e'.overwrites) :
    (e'.eval (e.eval m).1).1 (e.eval m).2 = e.value (fun n => m (.var n)) := by
  obtain ⟨h1, h2, h3⟩ := eval_spec e hs m
  obtain ⟨k1, k2, k3⟩ := eval_spec e' hs' (e.eval m).1
  have hk' : e.buf ∉ e'.touched := by
    intro h
    rcases touched_cases e' _ h with h | ⟨f, h⟩
    · exact hk h
    · exact buf_not_copy e f h
  rw [h1, k3 _ hk', h2]

/-- C71. So a function of two results is right when the second one does not use the object of the first. -/
theorem distance_two (e e' : Expr) (hs : e.Safe) (hs' : e'.Safe) (m : Mem) (hk : e.buf ∉ e'.overwrites) :
    (distanceB (e.eval m).2 (e'.eval (e.eval m).1).2 (e'.eval (e.eval m).1).1).2 =
      V3.distance (e.value (fun n => m (.var n))) (e'.value (fun n => m (.var n))) := by
  have h1 := kept_reference e e' hs hs' m hk
  have h2 := (nested_calls e' hs' (e.eval m).1).1
  have h3 := (nested_calls e hs m).2
  unfold distanceB
  dsimp only
  rw [set_same, h1, h2]
  simp only [h3]
  rfl

theorem latDistance_two (L : Lat) (e e' : Expr) (hs : e.Safe) (hs' : e'.Safe) (m : Mem) (hk : e.buf ∉ e'.overwrites) :
    (latDistanceB L (e.eval m).2 (e'.eval (e.eval m).1).2 (e'.eval (e.eval m).1).1).2 =
      L.distance (e.value (fun n => m (.var n))) (e'.value (fun n => m (.var n))) := by
  have h1 := kept_reference e e' hs hs' m hk
  have h2 := (nested_calls e' hs' (e.eval m).1).1
  have h3 := (nested_calls e hs m).2
  unfold latDistanceB
  dsimp only
  rw [set_same, h1, h2]
  simp only [h3]
  rfl

/-! ### Where it fails -/

/-- The distance of two results of the same function is always zero: both references are the same object. -/
theorem same_function_bug (f : Fn) (e e' : Expr) (m : Mem) (hs : (Expr.app f e).Safe) (hs' : (Expr.app f e').Safe) :
    (distanceB ((Expr.app f e).eval m).2 ((Expr.app f e').eval ((Expr.app f e).eval m).1).2
      ((Expr.app f e').eval ((Expr.app f e).eval m).1).1).2 = 0 := by
  rw [(eval_spec _ hs m).1, (eval_spec _ hs' _).1]
  unfold distanceB
  dsimp only
  rw [set_same]
  simp [V3.norm, V3.sub, V3.dot, Expr.buf]

/-- A rotation by 90 degrees about z. -/
def rot : M3 := ⟨⟨0, -1, 0⟩, ⟨1, 0, 0⟩, ⟨0, 0, 1⟩⟩

/-- A product applied to the result of the same product is wrong: the argument is overwritten while it is read.  Rotating (1,0,0)
twice gives (-1,-1,0) instead of (-1,0,0); the same for `cartesian` of a product. -/
theorem product_twice_bug (m : Mem) (hm : m (.var 0) = ⟨1, 0, 0⟩) (L : Lat) (hL : L.base = rot) :
    let e := Expr.app (.mulRight rot) (.app (.mulRight rot) (.var 0))
    let e' := Expr.app (.lat (.cartesian L)) (.app (.mulLeft rot) (.var 0))
    ((e.eval m).1 (e.eval m).2 ≠ e.value (fun n => m (.var n))) ∧ ((e'.eval m).1 (e'.eval m).2 ≠ e'.value (fun n => m (.var n))) := by
  intro e e'
  constructor
  · simp only [e, Expr.eval, Expr.value, Fn.call, Fn.value]
    rw [mxRight_spec rot (.var 0) m (by simp)]
    simp only [mxRight, set_same, hm]
    simp [rot, M3.mulVec, V3.dot]
  · simp only [e', Expr.eval, Expr.value, Fn.call, Fn.value, LFn.call, LFn.value]
    rw [mxLeft_spec rot (.var 0) m (by simp)]
    simp only [cartesianB, mxLeft, set_same, hm, Lat.cartesian, hL]
    simp [rot, M3.vecMul, V3.dot, M3.c0, M3.c1, M3.c2]

/-! ## `setLatBase` on references -/

/-- The reference is read before the vector it refers to is overwritten, or is not one of those. -/
def Fresh (vb0 vc0 : Arg) : Prop := vb0 ≠ .va ∧ vc0 ≠ .va ∧ vc0 ≠ .vb

/-- C71. `setLatBase` on references is `setLatBase` on the values, unless the second or third argument refers to a cell vector of the
lattice that is assigned before it. -/
theorem setLatBase_references (o : LatObj) (a b c : Arg) (hf : Fresh b c) :
    (setLatBaseRef o a b c).1.lat = (setLatBase o.lat (a.read o) (b.read o) (c.read o)).1 ∧
    (setLatBaseRef o a b c).2 = (setLatBase o.lat (a.read o) (b.read o) (c.read o)).2 ∧
    ((setLatBaseRef o a b c).2 = true → (setLatBaseRef o a b c).1.va = a.read o ∧ (setLatBaseRef o a b c).1.vb = b.read o ∧
      (setLatBaseRef o a b c).1.vc = c.read o) := by
  obtain ⟨h1, h2, h3⟩ := hf
  have ra : ∀ L, a.read { o with lat := L } = a.read o := fun L => by cases a <;> rfl
  have rb : ∀ L v, b.read { o with lat := L, va := v } = b.read o := fun L v => by
    cases b with
    | va => exact absurd rfl h1
    | _ => rfl
  have rc : ∀ L v w, c.read { o with lat := L, va := v, vb := w } = c.read o := fun L v w => by
    cases c with
    | va => exact absurd rfl h2
    | vb => exact absurd rfl h3
    | _ => rfl
  unfold setLatBaseRef setLatBase
  dsimp only
  simp only [ra, rb, rc]
  split
  · exact ⟨rfl, rfl, fun h => nomatch h⟩
  · split
    · exact ⟨rfl, rfl, fun h => nomatch h⟩
    · exact ⟨rfl, rfl, fun _ => ⟨rfl, rfl, rfl⟩⟩

/-- Permuting the cell vectors with `L.setLatBase(L.vb(), L.vc(), L.va())` fails silently: the third length is that of the old `b`
instead of the old `a`, and disagrees with the stored base. -/
theorem permute_bug (o : LatObj) (ha : o.va = ⟨1, 0, 0⟩) (hb : o.vb = ⟨0, 2, 0⟩) (hc : o.vc = ⟨0, 0, 3⟩) :
    (setLatBaseRef o .vb .vc .va).2 = true ∧ (setLatBaseRef o .vb .vc .va).1.lat.base.r2 = ⟨1, 0, 0⟩ ∧
    (setLatBaseRef o .vb .vc .va).1.lat.c = 2 ∧ (setLatBaseRef o .vb .vc .va).1.vc = ⟨0, 2, 0⟩ := by
  have hd : M3.det ⟨o.vb, o.vc, o.va⟩ = 6 := by
    rw [ha, hb, hc]; norm_num [M3.det, V3.dot, V3.cross]
  unfold setLatBaseRef
  simp only [Arg.read, hd]
  rw [if_neg (by norm_num), if_neg (by norm_num)]
  refine ⟨rfl, ?_, ?_, hb⟩
  · rw [← ha]; rfl
  · change V3.norm o.vb = 2
    rw [hb]
    simp only [V3.norm, V3.dot]
    rw [show (0 * 0 + 2 * 2 + 0 * 0 : ℝ) = 2 ^ 2 by norm_num, Real.sqrt_sq (by norm_num)]

/-! ## Matrices -/

@[simp] theorem mset_same (m : MMem) (b : MBuf) (v : M3) : m.set b v b = v := if_pos rfl

theorem mset_ne (m : MMem) {b b' : MBuf} (v : M3) (h : b' ≠ b) : m.set b v b' = m b' := if_neg h

/-- The mathematical function. -/
noncomputable def MFn.value : MFn → M3 → M3
  | .cartesianMatrix L, A => L.cartesianMatrix A
  | .fractionalMatrix L, A => L.fractionalMatrix A
  | .inverse, A => A.inverse

/-- C71. The tensor conversions and the inverse are right for every argument, also their own results; variables do not change. -/
theorem matrix_call (f : MFn) (a : MBuf) (m : MMem) :
    (f.call a m).1 (f.call a m).2 = f.value (m a) ∧ ∀ n, (f.call a m).1 (.var n) = m (.var n) := by
  cases f with
  | cartesianMatrix L =>
    simp only [MFn.call, mset_same]
    exact ⟨rfl, fun n => by rw [mset_ne _ _ (by simp), mset_ne _ _ (by simp)]⟩
  | fractionalMatrix L =>
    simp only [MFn.call, mset_same]
    exact ⟨rfl, fun n => by rw [mset_ne _ _ (by simp), mset_ne _ _ (by simp)]⟩
  | inverse =>
    simp only [MFn.call, mset_same]
    exact ⟨rfl, fun n => mset_ne _ _ (by simp)⟩

/-- C71. Nested tensor calls of any depth. -/
theorem matrix_nested (fs : List MFn) (n : Nat) (m : MMem) :
    let r := fs.foldl (fun (r : MMem × MBuf) f => f.call r.2 r.1) (m, .var n)
    r.1 r.2 = fs.foldl (fun A f => f.value A) (m (.var n)) := by
  have key : ∀ (fs : List MFn) (r : MMem × MBuf),
      (fs.foldl (fun (r : MMem × MBuf) f => f.call r.2 r.1) r).1 (fs.foldl (fun (r : MMem × MBuf) f => f.call r.2 r.1) r).2 =
        fs.foldl (fun A f => f.value A) (r.1 r.2) := by
    intro fs
    induction fs with
    | nil => intro r; rfl
    | cons f fs ih => intro r; rw [List.foldl_cons, List.foldl_cons, ih, (matrix_call f r.2 r.1).1]
  exact key fs (m, .var n)

/-! ## Numbers -/

/-- `getQmax` of two calculators: the reference returned by the first call reads the value of the second, both are one object. -/
theorem getQmax_bug (q1 d1 q2 d2 s : ℝ) :
    getQmaxB q2 d2 (getQmaxB q1 d1 s) = min q2 (Real.pi / d2) ∧
    (getQmaxB 1 1 s ≠ getQmaxB 2 1 (getQmaxB 1 1 s)) := by
  refine ⟨rfl, ?_⟩
  have := Real.pi_gt_three
  unfold getQmaxB
  rw [min_eq_left (by linarith), min_eq_left (by linarith)]
  norm_num

/-! ### Cases -/

/-- `ucvCartesian(cartesian(floor(x)))` and a rotated vector wrapped into the cell are safe expressions. -/
example (L : Lat) : (Expr.app (.lat (.ucvCartesian L)) (.app (.lat (.cartesian L)) (.app .floor (.var 0)))).Safe ∧
    (Expr.app (.lat .ucvFractional) (.app (.mulRight rot) (.var 0))).Safe := by
  simp [Expr.Safe, Fn.usesLeft, Fn.usesRight, Expr.isLeft, Expr.isRight]

/-- The distance of a Cartesian position and the wrapped fractional coordinates is one of two different objects. -/
example (L : Lat) : (Expr.app (.lat (.cartesian L)) (.var 0)).buf ∉ (Expr.app (.lat .ucvFractional) (.var 1)).overwrites := by
  simp [Expr.buf, Expr.overwrites, Fn.res, LFn.res, Fn.touched, LFn.touched]

/-- The result of `fractional` stays valid when the template of `ucvFractional` is called. -/
example (L : Lat) : (Expr.app (.lat (.fractional L)) (.var 0)).buf ∉ (Expr.appOther .ucvFractional 1).overwrites := by
  simp [Expr.buf, Expr.overwrites, Fn.res, LFn.res, LFn.touched]

example : Fresh .vb .vc := ⟨by simp, by simp, by simp⟩

end Verif.Buffers
