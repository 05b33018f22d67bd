import Verif.Model.History
import Verif.Props.Evaluator
/-! Closed forms and invariants of the calculator history model. -/
set_option linter.unusedSectionVars false
namespace Verif.History
open Verif.Eval Verif.Diff

variable {C S B G : Type} [AddCommGroup G]

theorem exec_nil (st : St C S G) : exec [] st = st := rfl
theorem exec_cons (f : St C S G → St C S G) (p : Prog C S G) (st : St C S G) :
    exec (f :: p) st = exec p (f st) := rfl
theorem exec_append (p q : Prog C S G) (st : St C S G) :
    exec (p ++ q) st = exec q (exec p st) := by
  unfold exec; rw [List.foldl_append]

theorem exec_adds (K : Calc C S B G) (tr : List (Contrib B)) (st : St C S G) :
    exec (tr.map (addC K)) st
      = { st with value := st.value + traceSum (K.con st.cfg st.cur) tr } := by
  induction tr generalizing st with
  | nil => simp [exec_nil, traceSum]
  | cons t tr ih =>
    rw [List.map_cons, exec_cons, ih]
    simp only [addC, traceSum, List.map_cons, List.sum_cons, add_assoc]

/-- Value of the BASIC evaluator for job `cpu` of `ncpu`. -/
def bval (K : Calc C S B G) (c : C) (stru : S) (cpu ncpu : Int) : G :=
  traceSum (K.con c stru) (basicTrace (K.rule (K.count stru) ncpu) (K.gen c stru) K.fullSum
    (K.use c stru) (K.count stru) cpu ncpu)

theorem setStru_cfg (K : Calc C S B G) (stru : S) (st : St C S G) :
    (setStru K stru st).cfg = (K.custom stru st.cfg).1 := by
  unfold setStru; simp only; split <;> rfl

theorem setStru_cur (K : Calc C S B G) (stru : S) (st : St C S G) :
    (setStru K stru st).cur = stru := by
  unfold setStru; simp only; split <;> rfl

theorem setStru_value (K : Calc C S B G) (stru : S) (st : St C S G) :
    (setStru K stru st).value = 0 := by
  unfold setStru; simp only; split <;> rfl

/-- Closed form of the BASIC evaluation. -/
def basicFinal (K : Calc C S B G) (cpu ncpu : Int) (stru : S) (st : St C S G) : St C S G :=
  clickVal { setStru K stru (setUsed .basic st) with
    value := bval K (K.custom stru st.cfg).1 stru cpu ncpu }

theorem exec_basic (K : Calc C S B G) (cpu ncpu : Int) (stru : S) (st : St C S G) :
    exec (basicProg K st.cfg cpu ncpu stru) st = basicFinal K cpu ncpu stru st := by
  unfold basicProg basicFinal
  simp only [List.cons_append, List.nil_append]
  rw [exec_cons, exec_cons, exec_append, exec_adds, exec_cons, exec_nil]
  rw [setStru_cfg, setStru_cur, setStru_value, zero_add]
  rfl

theorem exec_complete (K : Calc C S B G) (cpu ncpu : Int) (stru : S) (st : St C S G) :
    exec (completeProg K st.cfg cpu ncpu stru) st = setLast (basicFinal K cpu ncpu stru st) := by
  unfold completeProg
  rw [exec_append, exec_basic]
  rfl

/-- Contributions removed and added by a fast update of one job. -/
def remSum (K : Calc C S B G) (st : St C S G) (s0 : S) (d : SD) : G :=
  traceSum (K.con st.cfg st.cur) (removeTrace (K.gen st.cfg s0) K.fullSum (K.use st.cfg st.cur)
    (K.count s0) d.pop0 st.cpuindex st.ncpu).2

def addSum (K : Calc C S B G) (st : St C S G) (s0 stru : S) (d : SD) : G :=
  let c' := (K.custom stru st.cfg).1
  traceSum (K.con c' stru) (addTrace (K.gen c' stru) K.fullSum (K.use c' stru) (K.count stru) d.add1
    (removeTrace (K.gen st.cfg s0) K.fullSum (K.use st.cfg st.cur)
      (K.count s0) d.pop0 st.cpuindex st.ncpu).1 st.ncpu)

/-- State after the removal, stash and `setStructure` of a fast update. -/
def midFast (K : Calc C S B G) (s0 stru : S) (d : SD) (st : St C S G) : St C S G :=
  setStru K stru (doStash { st with value := st.value + remSum K st s0 d })

/-- Closed form of the fast update without fallback. -/
def fastFinal (K : Calc C S B G) (s0 stru : S) (d : SD) (st : St C S G) : St C S G :=
  clickVal (setLast { midFast K s0 stru d st with
    value := st.value + remSum K st s0 d + addSum K st s0 stru d })

theorem exec_fast (K : Calc C S B G) (s0 stru : S) (d : SD) (st st' : St C S G)
    (h : st' = { st with used := st'.used }) :
    exec (fastProg K st s0 stru d) st' =
      if (setStru K stru st).pqTick ≥ st.valTick then
        setLast (basicFinal K st.cpuindex st.ncpu stru (midFast K s0 stru d st'))
      else fastFinal K s0 stru d st' := by
  have hv : st'.value = st.value := by rw [h]
  have hc : st'.cfg = st.cfg := by rw [h]
  have hu : st'.cur = st.cur := by rw [h]
  have hi : st'.cpuindex = st.cpuindex := by rw [h]
  have hn : st'.ncpu = st.ncpu := by rw [h]
  have hrem : remSum K st' s0 d = remSum K st s0 d := by unfold remSum; rw [hc, hu, hi, hn]
  have hadd : addSum K st' s0 stru d = addSum K st s0 stru d := by
    unfold addSum; rw [hc, hu, hi, hn]
  unfold fastProg
  simp only
  rw [List.append_assoc, exec_append, exec_adds, List.cons_append, List.cons_append, List.nil_append,
    exec_cons, exec_cons]
  have hmid : setStru K stru (doStash { st' with value := (st'.value +
      traceSum (K.con st'.cfg st'.cur)
        (removeTrace (K.gen st.cfg s0) K.fullSum (K.use st.cfg st.cur) (K.count s0) d.pop0
          st.cpuindex st.ncpu).2) }) = midFast K s0 stru d st' := by
    unfold midFast remSum
    rw [hc, hu, hi, hn]
  rw [hmid]
  have hcfg : (midFast K s0 stru d st').cfg = (K.custom stru st.cfg).1 := by
    unfold midFast; rw [setStru_cfg]; unfold doStash; simp only [hc]
  split
  · rw [← hcfg, exec_complete]
  · rw [List.cons_append, List.cons_append, List.nil_append, exec_cons, exec_append, exec_adds,
      exec_cons, exec_cons, exec_nil]
    have hcur : (midFast K s0 stru d st').cur = stru := setStru_cur _ _ _
    have hst : (midFast K s0 stru d st').stash = st'.value + remSum K st' s0 d := by
      unfold midFast setStru doStash; simp only; split <;> rfl
    unfold fastFinal doRestore
    simp only [hcur, hcfg, hst]
    rw [hadd]
    rfl

/-- Closed form of the OPTIMIZED evaluation. -/
def optFinal (K : Calc C S B G) (stru : S) (st : St C S G) : St C S G :=
  match fastChoice K st stru with
  | none => setLast (basicFinal K st.cpuindex st.ncpu stru st)
  | some (s0, d) =>
    if (setStru K stru st).pqTick ≥ st.valTick then
      setLast (basicFinal K st.cpuindex st.ncpu stru (midFast K s0 stru d (setUsed .optimized st)))
    else fastFinal K s0 stru d (setUsed .optimized st)

theorem exec_opt (K : Calc C S B G) (stru : S) (st : St C S G) :
    exec (optProg K st stru) st = optFinal K stru st := by
  unfold optProg optFinal
  rw [exec_cons]
  cases hf : fastChoice K st stru with
  | none =>
    simp only
    have := exec_complete K st.cpuindex st.ncpu stru (setUsed .optimized st)
    exact this
  | some p =>
    obtain ⟨s0, d⟩ := p
    simp only
    exact exec_fast K s0 stru d st (setUsed .optimized st) rfl

/-- Closed form of the CHECK evaluation. -/
def checkFinal (K : Calc C S B G) (stru : S) (st : St C S G) : St C S G :=
  let st' := optFinal K stru st
  if st'.used = .basic then st'
  else setUsed .check (basicFinal K st.cpuindex st.ncpu stru (doSave st'))

theorem exec_check (K : Calc C S B G) (stru : S) (st : St C S G) :
    exec (checkProg K st stru) st = checkFinal K stru st := by
  unfold checkProg checkFinal
  simp only
  rw [exec_append, exec_opt]
  split
  · rfl
  · rw [List.cons_append, List.nil_append, List.cons_append, exec_cons, exec_append]
    have := exec_basic K st.cpuindex st.ncpu stru (doSave (optFinal K stru st))
    rw [show (doSave (optFinal K stru st)).cfg = (optFinal K stru st).cfg from rfl] at this
    rw [this]
    rfl

theorem evalSt_eq (K : Calc C S B G) (st : St C S G) (stru : S) :
    evalSt K st stru = match st.evtype with
      | .optimized => optFinal K stru st
      | .check => checkFinal K stru st
      | _ => basicFinal K st.cpuindex st.ncpu stru st := by
  unfold evalSt evalProg
  cases st.evtype
  · exact exec_basic _ _ _ _ _
  · exact exec_basic _ _ _ _ _
  · exact exec_opt _ _ _
  · exact exec_check _ _ _

/-! ### Control state -/

/-- The part of the state that the jobs of a parallel run have in common. -/
def ctl (st : St C S G) : St C S G :=
  { st with value := 0, stash := 0, saved := 0, cpuindex := 0 }

theorem ctl_iff (a b : St C S G) : ctl a = ctl b ↔
    a.clock = b.clock ∧ a.pqTick = b.pqTick ∧ a.valTick = b.valTick ∧ a.last = b.last ∧
    a.cur = b.cur ∧ a.cfg = b.cfg ∧ a.evtype = b.evtype ∧ a.used = b.used ∧ a.ncpu = b.ncpu := by
  unfold ctl
  simp only [St.mk.injEq, true_and]

theorem ctl_setStru (K : Calc C S B G) (stru : S) (a b : St C S G) (h : ctl a = ctl b) :
    ctl (setStru K stru a) = ctl (setStru K stru b) := by
  rw [ctl_iff] at h ⊢
  obtain ⟨h1, h2, h3, h4, h5, h6, h7, h8, h9⟩ := h
  unfold setStru clickPq
  simp only [h6]
  split <;> simp only [h1, h2, h3, h4, h7, h8, h9, and_self]

theorem ctl_basicFinal (K : Calc C S B G) (i j m n : Int) (stru : S) (a b : St C S G)
    (h : ctl a = ctl b) : ctl (basicFinal K i m stru a) = ctl (basicFinal K j n stru b) := by
  have h' : ctl (setUsed .basic a) = ctl (setUsed .basic b) := by
    rw [ctl_iff] at h ⊢
    obtain ⟨h1, h2, h3, h4, h5, h6, h7, h8, h9⟩ := h
    exact ⟨h1, h2, h3, h4, h5, h6, h7, rfl, h9⟩
  have h'' := ctl_setStru K stru _ _ h'
  rw [ctl_iff] at h'' ⊢
  obtain ⟨h1, h2, h3, h4, h5, h6, h7, h8, h9⟩ := h''
  unfold basicFinal clickVal
  exact ⟨by simp only [h1], h2, by simp only [h1], h4, h5, h6, h7, h8, h9⟩

theorem ctl_setLast (a b : St C S G) (h : ctl a = ctl b) : ctl (setLast a) = ctl (setLast b) := by
  rw [ctl_iff] at h ⊢
  obtain ⟨h1, h2, h3, h4, h5, h6, h7, h8, h9⟩ := h
  exact ⟨h1, h2, h3, by unfold setLast; simp only [h5], h5, h6, h7, h8, h9⟩

theorem ctl_midFast (K : Calc C S B G) (s0 stru : S) (d : SD) (a b : St C S G) (h : ctl a = ctl b) :
    ctl (midFast K s0 stru d a) = ctl (midFast K s0 stru d b) := by
  unfold midFast
  apply ctl_setStru
  rw [ctl_iff] at h ⊢
  exact h

theorem ctl_setUsed (t : EvType) (a b : St C S G) (h : ctl a = ctl b) :
    ctl (setUsed t a) = ctl (setUsed t b) := by
  rw [ctl_iff] at h ⊢
  obtain ⟨h1, h2, h3, h4, h5, h6, h7, h8, h9⟩ := h
  exact ⟨h1, h2, h3, h4, h5, h6, h7, rfl, h9⟩

theorem ctl_fastFinal (K : Calc C S B G) (s0 stru : S) (d : SD) (a b : St C S G) (h : ctl a = ctl b) :
    ctl (fastFinal K s0 stru d a) = ctl (fastFinal K s0 stru d b) := by
  have h' := ctl_midFast K s0 stru d a b h
  rw [ctl_iff] at h' ⊢
  obtain ⟨h1, h2, h3, h4, h5, h6, h7, h8, h9⟩ := h'
  unfold fastFinal clickVal setLast
  exact ⟨by simp only [h1], h2, by simp only [h1], by simp only [h5], h5, h6, h7, h8, h9⟩

theorem fastChoice_ctl (K : Calc C S B G) (stru : S) (a b : St C S G) (h : ctl a = ctl b) :
    fastChoice K a stru = fastChoice K b stru := by
  rw [ctl_iff] at h
  obtain ⟨h1, h2, h3, h4, h5, h6, h7, h8, h9⟩ := h
  unfold fastChoice
  rw [h4, h2, h3, h6]

theorem ctl_optFinal (K : Calc C S B G) (stru : S) (a b : St C S G) (h : ctl a = ctl b) :
    ctl (optFinal K stru a) = ctl (optFinal K stru b) := by
  have hs := (ctl_iff _ _).1 (ctl_setStru K stru a b h)
  have hv := ((ctl_iff _ _).1 h).2.2.1
  unfold optFinal
  rw [fastChoice_ctl K stru a b h]
  cases fastChoice K b stru with
  | none => exact ctl_setLast _ _ (ctl_basicFinal _ _ _ _ _ _ _ _ h)
  | some p =>
    obtain ⟨s0, d⟩ := p
    simp only [hs.2.1, hv]
    split
    · exact ctl_setLast _ _ (ctl_basicFinal _ _ _ _ _ _ _ _
        (ctl_midFast _ _ _ _ _ _ (ctl_setUsed _ _ _ h)))
    · exact ctl_fastFinal _ _ _ _ _ _ (ctl_setUsed _ _ _ h)

theorem ctl_evalSt (K : Calc C S B G) (stru : S) (a b : St C S G) (h : ctl a = ctl b) :
    ctl (evalSt K a stru) = ctl (evalSt K b stru) := by
  rw [evalSt_eq, evalSt_eq]
  have he : a.evtype = b.evtype := ((ctl_iff _ _).1 h).2.2.2.2.2.2.1
  rw [he]
  have ho := ctl_optFinal K stru a b h
  cases b.evtype
  · exact ctl_basicFinal _ _ _ _ _ _ _ _ h
  · exact ctl_basicFinal _ _ _ _ _ _ _ _ h
  · exact ho
  · have hu : (optFinal K stru a).used = (optFinal K stru b).used := ((ctl_iff _ _).1 ho).2.2.2.2.2.2.2.1
    simp only [checkFinal, hu]
    split
    · exact ho
    · exact ctl_setUsed _ _ _ (ctl_basicFinal _ _ _ _ _ _ _ _ ho)

/-! ### Ticker bounds, kept by every elementary change -/

/-- Tickers are not ahead of the clock; without a fast evaluator there is no last structure. -/
structure Bnd (st : St C S G) : Prop where
  pq : st.pqTick ≤ st.clock
  val : st.valTick ≤ st.clock
  last : st.evtype ≠ .optimized → st.evtype ≠ .check → st.last = none

/-- Elementary changes allowed for the evaluator type. -/
def Keeps (f : St C S G → St C S G) : Prop :=
  ∀ st, Bnd st → Bnd (f st) ∧ (f st).evtype = st.evtype ∧ (f st).cpuindex = st.cpuindex ∧
    (f st).ncpu = st.ncpu

theorem keeps_setStru (K : Calc C S B G) (stru : S) : Keeps (setStru K stru : St C S G → _) := by
  intro st h
  unfold setStru clickPq
  simp only
  split
  · exact ⟨⟨Nat.le_refl _, Nat.le_succ_of_le h.val, h.last⟩, rfl, rfl, rfl⟩
  · exact ⟨⟨h.pq, h.val, h.last⟩, rfl, rfl, rfl⟩

theorem keeps_clickVal : Keeps (clickVal : St C S G → _) := fun _ h =>
  ⟨⟨Nat.le_succ_of_le h.pq, Nat.le_refl _, h.last⟩, rfl, rfl, rfl⟩

theorem keeps_clickPq : Keeps (clickPq : St C S G → _) := fun _ h =>
  ⟨⟨Nat.le_refl _, Nat.le_succ_of_le h.val, h.last⟩, rfl, rfl, rfl⟩

theorem keeps_addC (K : Calc C S B G) (t : Contrib B) : Keeps (addC K t : St C S G → _) := fun _ h =>
  ⟨⟨h.pq, h.val, h.last⟩, rfl, rfl, rfl⟩

theorem keeps_setUsed (t : EvType) : Keeps (setUsed t : St C S G → _) := fun _ h =>
  ⟨⟨h.pq, h.val, h.last⟩, rfl, rfl, rfl⟩

theorem keeps_doStash : Keeps (doStash : St C S G → _) := fun _ h =>
  ⟨⟨h.pq, h.val, h.last⟩, rfl, rfl, rfl⟩
theorem keeps_doRestore : Keeps (doRestore : St C S G → _) := fun _ h =>
  ⟨⟨h.pq, h.val, h.last⟩, rfl, rfl, rfl⟩
theorem keeps_doSave : Keeps (doSave : St C S G → _) := fun _ h =>
  ⟨⟨h.pq, h.val, h.last⟩, rfl, rfl, rfl⟩

/-- `setLast` is only used by the OPTIMIZED and CHECK evaluators. -/
def KeepsFast (f : St C S G → St C S G) : Prop :=
  ∀ st, (st.evtype = .optimized ∨ st.evtype = .check) → Bnd st →
    Bnd (f st) ∧ (f st).evtype = st.evtype ∧ (f st).cpuindex = st.cpuindex ∧ (f st).ncpu = st.ncpu

theorem keepsFast_setLast : KeepsFast (setLast : St C S G → _) := by
  intro st he h
  refine ⟨⟨h.pq, h.val, ?_⟩, rfl, rfl, rfl⟩
  intro h1 h2
  rcases he with he | he
  · exact absurd he h1
  · exact absurd he h2

theorem Keeps.fast {f : St C S G → St C S G} (h : Keeps f) : KeepsFast f := fun st _ hb => h st hb

theorem exec_keeps (p : Prog C S G) (hp : ∀ f ∈ p, Keeps f) (st : St C S G) (h : Bnd st) :
    Bnd (exec p st) ∧ (exec p st).evtype = st.evtype ∧ (exec p st).cpuindex = st.cpuindex ∧
      (exec p st).ncpu = st.ncpu := by
  induction p generalizing st with
  | nil => exact ⟨h, rfl, rfl, rfl⟩
  | cons f p ih =>
    obtain ⟨h1, h2, h3, h4⟩ := hp f (by simp) st h
    obtain ⟨i1, i2, i3, i4⟩ := ih (fun g hg => hp g (by simp [hg])) _ h1
    exact ⟨i1, i2.trans h2, i3.trans h3, i4.trans h4⟩

theorem exec_keepsFast (p : Prog C S G) (hp : ∀ f ∈ p, KeepsFast f) (st : St C S G)
    (he : st.evtype = .optimized ∨ st.evtype = .check) (h : Bnd st) :
    Bnd (exec p st) ∧ (exec p st).evtype = st.evtype ∧ (exec p st).cpuindex = st.cpuindex ∧
      (exec p st).ncpu = st.ncpu := by
  induction p generalizing st with
  | nil => exact ⟨h, rfl, rfl, rfl⟩
  | cons f p ih =>
    obtain ⟨h1, h2, h3, h4⟩ := hp f (by simp) st he h
    obtain ⟨i1, i2, i3, i4⟩ := ih (fun g hg => hp g (by simp [hg])) _ (h2 ▸ he) h1
    exact ⟨i1, i2.trans h2, i3.trans h3, i4.trans h4⟩

theorem basicProg_keeps (K : Calc C S B G) (c : C) (cpu ncpu : Int) (stru : S) :
    ∀ f ∈ (basicProg K c cpu ncpu stru : Prog C S G), Keeps f := by
  intro f hf
  simp only [basicProg, List.cons_append, List.nil_append, List.mem_cons, List.mem_append,
    List.mem_map, List.not_mem_nil, or_false] at hf
  rcases hf with rfl | rfl | ⟨t, _, rfl⟩ | rfl
  · exact keeps_setUsed _
  · exact keeps_setStru _ _
  · exact keeps_addC _ _
  · exact keeps_clickVal

theorem completeProg_keeps (K : Calc C S B G) (c : C) (cpu ncpu : Int) (stru : S) :
    ∀ f ∈ (completeProg K c cpu ncpu stru : Prog C S G), KeepsFast f := by
  intro f hf
  simp only [completeProg, List.mem_append, List.mem_singleton] at hf
  rcases hf with h | rfl
  · exact (basicProg_keeps K c cpu ncpu stru f h).fast
  · exact keepsFast_setLast

theorem optProg_keeps (K : Calc C S B G) (st : St C S G) (stru : S) :
    ∀ f ∈ optProg K st stru, KeepsFast f := by
  intro f hf
  unfold optProg at hf
  rcases List.mem_cons.1 hf with rfl | hf
  · exact (keeps_setUsed _).fast
  · split at hf
    · exact completeProg_keeps _ _ _ _ _ f hf
    · simp only [fastProg, List.mem_append, List.mem_cons, List.mem_map, List.not_mem_nil,
        or_false] at hf
      rcases hf with (⟨t, _, rfl⟩ | rfl | rfl) | hf
      · exact (keeps_addC _ _).fast
      · exact keeps_doStash.fast
      · exact (keeps_setStru _ _).fast
      · split at hf
        · exact completeProg_keeps _ _ _ _ _ f hf
        · simp only [List.mem_append, List.mem_cons, List.mem_map, List.not_mem_nil,
            or_false] at hf
          rcases hf with (rfl | ⟨t, _, rfl⟩) | rfl | rfl
          · exact keeps_doRestore.fast
          · exact (keeps_addC _ _).fast
          · exact keepsFast_setLast
          · exact keeps_clickVal.fast

theorem checkProg_keeps (K : Calc C S B G) (st : St C S G) (stru : S) :
    ∀ f ∈ checkProg K st stru, KeepsFast f := by
  intro f hf
  simp only [checkProg, List.mem_append] at hf
  rcases hf with hf | hf
  · exact optProg_keeps K st stru f hf
  · split at hf
    · simp at hf
    · simp only [List.mem_append, List.mem_cons, List.not_mem_nil, or_false] at hf
      rcases hf with (rfl | hf) | rfl
      · exact keeps_doSave.fast
      · exact (basicProg_keeps _ _ _ _ _ f hf).fast
      · exact (keeps_setUsed _).fast

/-- Any prefix of an evaluation keeps the bounds, the evaluator type and the CPU assignment. -/
theorem evalPrefix_keeps (K : Calc C S B G) (st : St C S G) (stru : S) (h : Bnd st) (p : Prog C S G)
    (hp : ∀ f ∈ p, f ∈ evalProg K st stru) :
    Bnd (exec p st) ∧ (exec p st).evtype = st.evtype ∧ (exec p st).cpuindex = st.cpuindex ∧
      (exec p st).ncpu = st.ncpu := by
  unfold evalProg at hp
  cases he : st.evtype
  · simp only [he] at hp
    have := exec_keeps p (fun f hf => basicProg_keeps _ _ _ _ _ f (hp f hf)) st h
    rw [he] at this; exact this
  · simp only [he] at hp
    have := exec_keeps p (fun f hf => basicProg_keeps _ _ _ _ _ f (hp f hf)) st h
    rw [he] at this; exact this
  · simp only [he] at hp
    have := exec_keepsFast p (fun f hf => optProg_keeps _ _ _ f (hp f hf)) st (Or.inl he) h
    rw [he] at this; exact this
  · simp only [he] at hp
    have := exec_keepsFast p (fun f hf => checkProg_keeps _ _ _ f (hp f hf)) st (Or.inr he) h
    rw [he] at this; exact this

end Verif.History
