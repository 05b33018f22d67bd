import Verif.Model.DebyeHistory
import Verif.Lemmas.PDFHistory
import Verif.Lemmas.HistoryOn
import Verif.Props.Debye
/-! The data of a Debye calculator over a history follow the abstract values of the calculator model. -/
set_option linter.unusedSectionVars false
namespace Verif.DebyeHist
open Verif.Eval Verif.Diff Verif.History Verif.Debye
open Verif.PDFHist (POp blank erase erase_setStru erase_evalSt erase_optFinal erase_step fastChoice_erase taint_erase)

variable {C S : Type}

/-! ### Scales -/

/-- The scale of a half sum: 1 on the diagonal and 2 elsewhere. -/
def halfScale (i j : ℕ) : ℤ := if i = j then 1 else 2

/-- Calls of a half sum. -/
def Half {B : Type} (t : Contrib B) : Prop := t.scale = halfScale t.i0 t.i1 ∨ t.scale = -halfScale t.i0 t.i1

theorem half_inner {B : Type} (s : Int) (hs : s = 1 ∨ s = -1) (use : Nat → Nat → Bool) (chop : Bool) (ncpu : Int) (i0 : Nat) :
    ∀ (l : List (Nat × B)) (n : Int), ∀ t ∈ (innerLoop s false use chop ncpu i0 l n).2, Half t := by
  intro l
  induction l with
  | nil => intro n t ht; simp [innerLoop] at ht
  | cons p l ih =>
    obtain ⟨i1, b⟩ := p
    intro n t ht
    unfold innerLoop at ht
    dsimp only at ht
    split at ht
    · exact ih _ t ht
    · split at ht
      · rw [List.mem_cons] at ht
        rcases ht with rfl | ht
        · unfold Half halfScale sumScale
          dsimp only
          rw [Bool.false_or]
          by_cases h : i0 = i1
          · simp [h]; exact hs
          · simp [h]; rcases hs with rfl | rfl <;> simp
        · exact ih _ t ht
      · exact ih _ t ht

theorem half_basicLoop {B : Type} (gen : Gen B) (use : Nat → Nat → Bool) (cnt : Nat) (co ci : Bool) (ncpu : Int) :
    ∀ (l : List Nat) (n : Int), ∀ t ∈ basicLoop gen false use cnt co ci ncpu l n, Half t := by
  intro l
  induction l with
  | nil => intro n t ht; simp [basicLoop] at ht
  | cons i0 l ih =>
    intro n t ht
    unfold basicLoop at ht
    dsimp only at ht
    split at ht
    · exact ih _ t ht
    · rw [List.mem_append] at ht
      rcases ht with ht | ht
      · exact half_inner 1 (Or.inl rfl) _ _ _ _ _ _ t ht
      · exact ih _ t ht

theorem half_basic {B : Type} (rule : Bool) (gen : Gen B) (use : Nat → Nat → Bool) (cnt : Nat) (cpu ncpu : Int) :
    ∀ t ∈ basicTrace rule gen false use cnt cpu ncpu, Half t := half_basicLoop _ _ _ _ _ _ _ _

theorem half_removeLoop {B : Type} (gen : Gen B) (use : Nat → Nat → Bool) (ncpu : Int) (pop : List Nat) :
    ∀ (l : List Nat) (todo pos : Nat) (n : Int) (sel : List Nat) (needs : Bool),
      ∀ t ∈ (removeLoop gen false use ncpu pop l todo pos n sel needs).2, Half t := by
  intro l
  induction l with
  | nil => intro todo pos n sel needs t ht; cases todo <;> simp [removeLoop] at ht
  | cons i0 l ih =>
    intro todo pos n sel needs t ht
    cases todo with
    | zero => simp [removeLoop] at ht
    | succ todo =>
      unfold removeLoop at ht
      dsimp only at ht
      split at ht
      · exact ih _ _ _ _ _ t ht
      · rw [List.mem_append] at ht
        rcases ht with ht | ht
        · exact half_inner (-1) (Or.inr rfl) _ _ _ _ _ _ t ht
        · exact ih _ _ _ _ _ t ht

theorem half_remove {B : Type} (gen : Gen B) (use : Nat → Nat → Bool) (cnt : Nat) (pop : List Nat) (cpu ncpu : Int) :
    ∀ t ∈ (removeTrace gen false use cnt pop cpu ncpu).2, Half t := half_removeLoop _ _ _ _ _ _ _ _ _ _

theorem half_addLoop {B : Type} (gen : Gen B) (use : Nat → Nat → Bool) (ncpu : Int) (anchors add : List Nat) :
    ∀ (l pre : List Nat) (n : Int) (sel : List Nat) (needs : Bool),
      ∀ t ∈ addLoop gen false use ncpu anchors add pre l n sel needs, Half t := by
  intro l
  induction l with
  | nil => intro pre n sel needs t ht; simp [addLoop] at ht
  | cons i0 l ih =>
    intro pre n sel needs t ht
    unfold addLoop at ht
    dsimp only at ht
    split at ht
    · exact ih _ _ _ _ t ht
    · rw [List.mem_append] at ht
      rcases ht with ht | ht
      · exact half_inner 1 (Or.inl rfl) _ _ _ _ _ _ t ht
      · exact ih _ _ _ _ t ht

theorem half_add {B : Type} (gen : Gen B) (use : Nat → Nat → Bool) (cnt : Nat) (add : List Nat) (n ncpu : Int) :
    ∀ t ∈ Eval.addTrace gen false use cnt add n ncpu, Half t := by
  unfold Eval.addTrace
  dsimp only
  rw [if_neg (by simp)]
  exact half_addLoop _ _ _ _ _ _ _ _ _ _

/-! ### Values -/

/-- What a bond adds to the value at index `n`, per unit of scale. -/
noncomputable def Cls.con (k : Cls C S) (c : C) (s : S) (i j : ℕ) (b : Bond) (n : ℕ) : ℝ :=
  if n < (k.par c).hi.toNat then
    added (k.par c) ((k.cache c s).sf i) ((k.cache c s).sf j) (halfScale i j) b n / (halfScale i j : ℝ) else 0

/-- The calculator with its values. -/
noncomputable def Cls.ghost (k : Cls C S) : History.Calc C S Bond (ℕ → ℝ) where
  fullSum := false
  fixedIdx := false
  canStash := true
  hasPairMask := k.hasPairMask
  rule := k.rule
  count := k.count
  gen := k.gen
  use := k.use
  con := k.con
  custom := k.custom
  diff := k.diff
  close _ _ := true

theorem blank_ghost (k : Cls C S) : blank k.ghost = k.control := rfl

theorem added_neg (p : QPar) (sf0 sf1 : ℤ → ℝ) (sc : ℤ) (b : Bond) (n : ℕ) :
    added p sf0 sf1 (-sc) b n = -added p sf0 sf1 sc b n := by
  have h : ∀ j, sineScale p b (-sc * b.mult) sf0 sf1 j = -sineScale p b (sc * b.mult) sf0 sf1 j := by
    intro j
    unfold sineScale
    push_cast
    ring
  have hc : (¬ |b.dist| ≤ PDFGrid.eps ∧ p.lo ≤ (n : ℤ) ∧
      ∀ j : ℤ, p.lo ≤ j → j ≤ (n : ℤ) → p.prec < |sineScale p b (-sc * b.mult) sf0 sf1 j|) ↔
      (¬ |b.dist| ≤ PDFGrid.eps ∧ p.lo ≤ (n : ℤ) ∧ ∀ j : ℤ, p.lo ≤ j → j ≤ (n : ℤ) → p.prec < |sineScale p b (sc * b.mult) sf0 sf1 j|) := by
    simp only [h, abs_neg]
  unfold added
  by_cases hx : ¬ |b.dist| ≤ PDFGrid.eps ∧ p.lo ≤ (n : ℤ) ∧
      ∀ j : ℤ, p.lo ≤ j → j ≤ (n : ℤ) → p.prec < |sineScale p b (sc * b.mult) sf0 sf1 j|
  · rw [if_pos hx, if_pos (hc.2 hx), h]
    ring
  · rw [if_neg hx, if_neg fun y => hx (hc.1 y), neg_zero]

theorem con_scale (k : Cls C S) (c : C) (s : S) (t : Contrib Bond) (ht : Half t) (n : ℕ) (hn : n < (k.par c).hi.toNat) :
    added (k.par c) ((k.cache c s).sf t.i0) ((k.cache c s).sf t.i1) t.scale t.bond n =
      (t.scale • k.con c s t.i0 t.i1 t.bond) n := by
  show _ = t.scale • k.con c s t.i0 t.i1 t.bond n
  have h0 : (halfScale t.i0 t.i1 : ℝ) ≠ 0 := by unfold halfScale; split <;> norm_num
  unfold Cls.con
  rw [if_pos hn, zsmul_eq_mul]
  rcases ht with h | h
  · rw [h, mul_div_cancel₀ _ h0]
  · rw [h, added_neg]
    push_cast
    rw [neg_mul, mul_div_cancel₀ _ h0]

/-- The data are those of the configuration, the structure and the value. -/
structure Agrees (k : Cls C S) (d : Data) (c : C) (s : S) (v : ℕ → ℝ) : Prop where
  cache : d.cache = k.cache c s
  avg : d.avg = k.avg c s
  totocc : d.totocc = k.totocc s
  len : d.value.length = (k.par c).hi.toNat
  val : ∀ n, n < (k.par c).hi.toNat → d.value.getD n 0 = v n

/-- The Q parameters are sensible. -/
def ParOk (k : Cls C S) : Prop := ∀ c, (k.par c).Ok

theorem agrees_add (k : Cls C S) (hp : ParOk k) (d : Data) (c : C) (s : S) (v : ℕ → ℝ)
    (h : Agrees k d c s v) (t : Contrib Bond) (ht : Half t) :
    Agrees k (addBond k c d t) c s (v + t.scale • k.con c s t.i0 t.i1 t.bond) := by
  obtain ⟨h1, h2⟩ := addPair_get (k.par c) (hp c) (d.cache.sf t.i0) (d.cache.sf t.i1) t.scale t.bond d.value h.len
  refine ⟨h.cache, h.avg, h.totocc, h1, fun n hn => ?_⟩
  show (addPair _ _ _ _ _ _).getD n 0 = _
  rw [h2 n hn, h.val n hn, h.cache, con_scale k c s t ht n hn]
  rfl

theorem agrees_adds (k : Cls C S) (hp : ParOk k) (c : C) (s : S) (tr : List (Contrib Bond)) (ht : ∀ t ∈ tr, Half t) :
    ∀ (d : Data) (v : ℕ → ℝ), Agrees k d c s v →
      Agrees k (tr.foldl (addBond k c) d) c s (v + traceSum (k.con c s) tr) := by
  induction tr with
  | nil => intro d v h; simpa [traceSum] using h
  | cons t tr ih =>
    intro d v h
    have := ih (fun u hu => ht u (by simp [hu])) _ _ (agrees_add k hp d c s v h t (ht t (by simp)))
    rw [List.foldl_cons]
    simpa [traceSum, add_assoc] using this

theorem agrees_reset (k : Cls C S) (c : C) (s : S) (d : Data) : Agrees k (resetValue k c s d) c s 0 := by
  refine ⟨rfl, rfl, rfl, ?_, fun n _ => ?_⟩
  · exact List.length_replicate
  · show (List.replicate _ (0 : ℝ)).getD n 0 = 0
    exact getD_replicate _ _

theorem agrees_restore (k : Cls C S) (c : C) (s0 s1 : S) (d : Data) (v : ℕ → ℝ) (h : Agrees k d c s0 v) :
    Agrees k (restorePartialValue (resetValue k c s1 (stashPartialValue d))) c s1 v :=
  ⟨rfl, rfl, rfl, h.len, h.val⟩

/-! ### Evaluations -/

theorem agrees_full (k : Cls C S) (hp : ParOk k) (c : C) (cpu ncpu : Int) (stru : S) (d : Data) :
    Agrees k (fullData k c cpu ncpu stru d) (k.custom stru c).1 stru (bval k.ghost (k.custom stru c).1 stru cpu ncpu) := by
  unfold fullData
  dsimp only
  have := agrees_adds k hp (k.custom stru c).1 stru
    (basicTrace (k.rule (k.count stru) ncpu) (k.gen (k.custom stru c).1 stru) false
      (k.use (k.custom stru c).1 stru) (k.count stru) cpu ncpu) (half_basic _ _ _ _ _ _) _ _ (agrees_reset k (k.custom stru c).1 stru d)
  rw [zero_add] at this
  exact this

/-- What is known of data and value when the evaluator may make a fast update. -/
def Ready (k : Cls C S) (P : C → Prop) (g : St C S (ℕ → ℝ)) (d : Data) : Prop :=
  g.pqTick ≥ g.valTick ∨ g.last = none ∨ (g.last = some g.cur ∧ P g.cfg ∧ Agrees k d g.cfg g.cur g.value)

theorem choice_ready {k : Cls C S} {P : C → Prop} {g : St C S (ℕ → ℝ)} {d : Data} (h : Ready k P g d) {stru s0 : S} {df : SD}
    (hc : fastChoice k.ghost g stru = some (s0, df)) : s0 = g.cur ∧ P g.cfg ∧ Agrees k d g.cfg g.cur g.value := by
  unfold fastChoice at hc
  rcases h with h | h | ⟨h, h2⟩
  · cases hl : g.last with
    | none => rw [hl] at hc; simp at hc
    | some x => rw [hl] at hc; simp [h] at hc
  · rw [h] at hc; simp at hc
  · rw [h] at hc
    dsimp only at hc
    refine ⟨?_, h2⟩
    split at hc
    · simp at hc
    · split at hc
      · simp at hc
      · split at hc
        · simp at hc
        · simp only [Option.some.injEq, Prod.mk.injEq] at hc
          exact hc.1.symm

theorem agrees_opt (k : Cls C S) (hp : ParOk k) (P : C → Prop)
    (hcu : ∀ s c, P c → (k.custom s c).2 = false → (k.custom s c).1 = c) (g : St C S (ℕ → ℝ)) (hb : Bnd g) (d : Data)
    (stru : S) (h : (optFinal k.ghost stru g).used = .basic ∨ Ready k P g d) :
    Agrees k (optData k (erase g) stru d) (optFinal k.ghost stru g).cfg stru (optFinal k.ghost stru g).value := by
  have hor := h
  unfold optFinal at h
  unfold optData optFinal
  rw [← blank_ghost k, fastChoice_erase]
  cases hf : fastChoice k.ghost g stru with
  | none =>
    show Agrees k (fullData k g.cfg g.cpuindex g.ncpu stru d) (basicFinal k.ghost g.cpuindex g.ncpu stru g).cfg stru _
    rw [basicFinal_cfg]
    exact agrees_full k hp g.cfg g.cpuindex g.ncpu stru d
  | some p =>
    obtain ⟨s0, df⟩ := p
    rw [hf] at h
    dsimp only at h ⊢
    rw [← erase_setStru]
    have hpt : (erase (setStru k.ghost stru g)).pqTick = (setStru k.ghost stru g).pqTick := rfl
    rw [hpt]
    have hv : (erase g).valTick = g.valTick := rfl
    rw [hv]
    by_cases hcond : (setStru k.ghost stru g).pqTick ≥ g.valTick
    · rw [if_pos hcond, if_pos hcond]
      show Agrees k (fullData k (k.custom stru g.cfg).1 g.cpuindex g.ncpu stru _)
        (basicFinal k.ghost g.cpuindex g.ncpu stru (midFast k.ghost s0 stru df (setUsed .optimized g))).cfg stru _
      rw [basicFinal_cfg, midFast_cfg]
      have := agrees_full k hp (k.custom stru g.cfg).1 g.cpuindex g.ncpu stru
        (resetValue k (k.custom stru g.cfg).1 stru (stashPartialValue
          ((removeTrace (k.gen g.cfg s0) false (k.use g.cfg g.cur) (k.count s0) df.pop0 g.cpuindex g.ncpu).2.foldl
            (addBond k g.cfg) d)))
      have ev : (setLast (basicFinal k.ghost g.cpuindex g.ncpu stru (midFast k.ghost s0 stru df (setUsed .optimized g)))).value =
          bval k.ghost (k.custom stru (k.custom stru g.cfg).1).1 stru g.cpuindex g.ncpu := by
        show (basicFinal k.ghost g.cpuindex g.ncpu stru (midFast k.ghost s0 stru df (setUsed .optimized g))).value = _
        rw [basicFinal_value, midFast_cfg]
        rfl
      rw [ev]
      exact this
    · rw [if_neg hcond] at h
      have hrd : Ready k P g d := by
        rcases h with h | h
        · have h' : (midFast k.ghost s0 stru df (setUsed .optimized g)).used = .basic := h
          rw [midFast_used] at h'
          cases h'
        · exact h
      obtain ⟨rfl, hP, ha⟩ := choice_ready hrd hf
      rw [if_neg hcond, if_neg hcond]
      have hcl : (k.custom stru g.cfg).2 = false := by
        by_contra hne
        rw [Bool.not_eq_false] at hne
        apply hcond
        have e : (setStru k.ghost stru g).pqTick = g.clock + 1 := by
          unfold setStru clickPq
          have : (k.ghost.custom stru g.cfg).2 = true := hne
          dsimp only
          rw [if_pos this]
        rw [e]
        have := hb.val
        omega
      have hcfg := hcu _ _ hP hcl
      have e1 : (fastFinal k.ghost g.cur stru df (setUsed .optimized g)).cfg = g.cfg := by
        show (midFast k.ghost g.cur stru df (setUsed .optimized g)).cfg = _
        rw [midFast_cfg]
        exact hcfg
      rw [e1]
      have hcc : (erase g).cfg = g.cfg := rfl
      rw [hcc, hcfg]
      have a1 := agrees_adds k hp g.cfg g.cur
        (removeTrace (k.gen g.cfg g.cur) false (k.use g.cfg g.cur) (k.count g.cur) df.pop0 g.cpuindex g.ncpu).2 (half_remove _ _ _ _ _ _) _ _ ha
      have a2 := agrees_restore k g.cfg g.cur stru _ _ a1
      have a3 := agrees_adds k hp g.cfg stru
        (Eval.addTrace (k.gen g.cfg stru) false (k.use g.cfg stru) (k.count stru) df.add1
          (removeTrace (k.gen g.cfg g.cur) false (k.use g.cfg g.cur) (k.count g.cur) df.pop0 g.cpuindex g.ncpu).1 g.ncpu) (half_add _ _ _ _ _ _) _ _ a2
      have ev : (fastFinal k.ghost g.cur stru df (setUsed .optimized g)).value = g.value + traceSum (k.con g.cfg g.cur)
            (removeTrace (k.gen g.cfg g.cur) false (k.use g.cfg g.cur) (k.count g.cur) df.pop0 g.cpuindex g.ncpu).2 +
          traceSum (k.con g.cfg stru) (Eval.addTrace (k.gen g.cfg stru) false (k.use g.cfg stru) (k.count stru) df.add1
            (removeTrace (k.gen g.cfg g.cur) false (k.use g.cfg g.cur) (k.count g.cur) df.pop0 g.cpuindex g.ncpu).1 g.ncpu) := by
        show g.value + remSum k.ghost (setUsed .optimized g) g.cur df + addSum k.ghost (setUsed .optimized g) g.cur stru df = _
        unfold remSum addSum
        dsimp only
        have hcg : (k.ghost.custom stru (setUsed EvType.optimized g).cfg).1 = g.cfg := hcfg
        rw [hcg]
        rfl
      rw [ev]
      exact a3

theorem agrees_eval (k : Cls C S) (hp : ParOk k) (P : C → Prop)
    (hcu : ∀ s c, P c → (k.custom s c).2 = false → (k.custom s c).1 = c) (g : St C S (ℕ → ℝ)) (hb : Bnd g) (d : Data)
    (stru : S) (h : (evalSt k.ghost g stru).used = .basic ∨ Ready k P g d) :
    Agrees k (evalData k (erase g) stru d) (evalSt k.ghost g stru).cfg stru (evalSt k.ghost g stru).value := by
  have hbas : Agrees k (fullData k g.cfg g.cpuindex g.ncpu stru d) (basicFinal k.ghost g.cpuindex g.ncpu stru g).cfg stru
      (basicFinal k.ghost g.cpuindex g.ncpu stru g).value := by
    rw [basicFinal_cfg]
    exact agrees_full k hp g.cfg g.cpuindex g.ncpu stru d
  rw [evalSt_eq] at h ⊢
  unfold evalData
  have e : (erase g).evtype = g.evtype := rfl
  rw [e]
  cases hty : g.evtype with
  | none => exact hbas
  | basic => exact hbas
  | optimized =>
    rw [hty] at h
    exact agrees_opt k hp P hcu g hb d stru h
  | check =>
    rw [hty] at h
    have hopt := agrees_opt k hp P hcu g hb d stru (by
      rcases h with h | h
      · simp only [checkFinal] at h
        by_cases hc : (optFinal k.ghost stru g).used = .basic
        · exact Or.inl hc
        · rw [if_neg hc] at h
          cases h
      · exact Or.inr h)
    dsimp only
    rw [exec_opt, ← blank_ghost k, ← erase_optFinal]
    unfold checkFinal
    dsimp only
    have hu : (erase (optFinal k.ghost stru g)).used = (optFinal k.ghost stru g).used := rfl
    rw [hu]
    by_cases hc : (optFinal k.ghost stru g).used = .basic
    · rw [if_pos hc, if_pos hc]
      exact hopt
    · rw [if_neg hc, if_neg hc]
      show Agrees k (fullData k (optFinal k.ghost stru g).cfg g.cpuindex g.ncpu stru _)
        (basicFinal k.ghost g.cpuindex g.ncpu stru (doSave (optFinal k.ghost stru g))).cfg stru
        (basicFinal k.ghost g.cpuindex g.ncpu stru (doSave (optFinal k.ghost stru g))).value
      rw [basicFinal_cfg]
      exact agrees_full k hp (optFinal k.ghost stru g).cfg g.cpuindex g.ncpu stru _



/-! ### Histories of several jobs -/

/-- One call on the state with values: `resetValue` after a change of evaluator may change the configuration. -/
noncomputable def gstep (k : Cls C S) (st : St C S (ℕ → ℝ)) (op : POp C S) : St C S (ℕ → ℝ) :=
  match op with
  | .setType t =>
    let h' := step k.ghost st (.setType t)
    if h'.evtype = st.evtype then h' else step k.ghost h' (.configure (fun _ => (k.reset h'.cur h'.cfg).1) (k.reset h'.cur h'.cfg).2)
  | op => step k.ghost st op.op

theorem erase_gstep (k : Cls C S) (p : DC C S) (st : St C S (ℕ → ℝ)) (hp : p.h = erase st) (op : POp C S) :
    (dcStep k p op).h = erase (gstep k st op) := by
  cases op with
  | eval stru =>
    show evalSt k.control p.h stru = _
    rw [hp, ← blank_ghost]
    exact (erase_step k.ghost st (.eval stru)).symm
  | setStructure stru =>
    show step k.control p.h (.setStructure stru) = _
    rw [hp, ← blank_ghost]
    exact (erase_step k.ghost st (.setStructure stru)).symm
  | configure f clicks r =>
    show step k.control p.h (.configure f clicks) = _
    rw [hp, ← blank_ghost]
    exact (erase_step k.ghost st (.configure f clicks r)).symm
  | setType t =>
    have h : step k.control p.h (.setType t) = erase (step k.ghost st (.setType t)) := by
      rw [hp, ← blank_ghost]
      exact (erase_step k.ghost st (.setType t)).symm
    have he : p.h.evtype = st.evtype := by rw [hp]; rfl
    show (if (step k.control p.h (.setType t)).evtype = p.h.evtype then (⟨_, _⟩ : DC C S) else ⟨_, _⟩).h =
      erase (if (step k.ghost st (.setType t)).evtype = st.evtype then _ else _)
    rw [h, he]
    have he2 : (erase (step k.ghost st (.setType t))).evtype = (step k.ghost st (.setType t)).evtype := rfl
    rw [he2]
    split
    · rfl
    · show resetPars k (erase (step k.ghost st (.setType t))) = _
      unfold resetPars
      rw [← blank_ghost]
      exact (erase_step k.ghost (step k.ghost st (.setType t)) (.configure _ _ false)).symm

/-- A change of the configuration that does not matter. -/
structure QuietLaw (k : Cls C S) (P : C → Prop) (Q : C → C → Prop) : Prop extends QuietOn k.ghost P Q where
  par : ∀ c c', Q c c' → k.par c' = k.par c
  cache : ∀ c c', Q c c' → ∀ s, k.cache c' s = k.cache c s
  avg : ∀ c c', Q c c' → ∀ s, k.avg c' s = k.avg c s

theorem agrees_quiet {k : Cls C S} {P : C → Prop} {Q : C → C → Prop} (hQ : QuietLaw k P Q) {d : Data} {c c' : C} {s : S} {v : ℕ → ℝ}
    (hq : Q c c') (h : Agrees k d c s v) : Agrees k d c' s v :=
  ⟨h.cache.trans (hQ.cache _ _ hq s).symm, h.avg.trans (hQ.avg _ _ hq s).symm, h.totocc, by rw [hQ.par _ _ hq]; exact h.len,
    by rw [hQ.par _ _ hq]; exact h.val⟩

theorem taintOn_ctl {B G : Type} [AddCommGroup G] (K : History.Calc C S B G) (Q : C → C → Prop) (a b : St C S G) (t : Bool)
    (h : ctl a = ctl b) (op : POp C S) : taintOn K Q a t op.op = taintOn K Q b t op.op := by
  have hc := (ctl_iff _ _).1 h
  have hcfg : a.cfg = b.cfg := hc.2.2.2.2.2.1
  have hev : a.evtype = b.evtype := hc.2.2.2.2.2.2.1
  cases op with
  | setType ty =>
    show (t && decide ((setTypeSt K ty a).evtype = a.evtype)) = (t && decide ((setTypeSt K ty b).evtype = b.evtype))
    have e : (setTypeSt K ty a).evtype = (setTypeSt K ty b).evtype := by
      unfold setTypeSt
      rw [hev]
      split
      · exact hev
      · split
        · exact hev
        · split
          · exact hev
          · rfl
    rw [e, hev]
  | eval stru =>
    have e := ((ctl_iff _ _).1 (ctl_evalSt K stru _ _ h)).2.2.2.2.2.2.2.1
    show (t && decide ((evalSt K a stru).used ≠ .basic)) = (t && decide ((evalSt K b stru).used ≠ .basic))
    rw [e]
  | configure f c r =>
    have e : Primed a ↔ Primed b := by unfold Primed; rw [hc.2.1, hc.2.2.1, hc.2.2.2.1]
    rw [Bool.eq_iff_iff]
    simp only [taintOn, POp.op, Bool.and_eq_true, Bool.or_eq_true, decide_eq_true_eq, e]
    rw [hcfg]
  | setStructure stru =>
    have e := primed_ctl _ _ (ctl_setStru K stru _ _ h)
    rw [Bool.eq_iff_iff]
    simp only [taintOn, POp.op, decide_eq_true_eq, e]

theorem taintOn_erase {B G : Type} [AddCommGroup G] (K : History.Calc C S B G) (Q : C → C → Prop) (st : St C S G) (t : Bool) (op : POp C S) :
    taintOn (blank K) Q (erase st) t op.op = taintOn K Q st t op.op := by
  cases op with
  | eval stru =>
    show (t && decide ((evalSt (blank K) (erase st) stru).used ≠ .basic)) = (t && decide ((evalSt K st stru).used ≠ .basic))
    rw [← erase_evalSt]
    rfl
  | configure f c r => rfl
  | setStructure stru => exact taint_erase K st t (.setStructure stru)
  | setType ty => exact taint_erase K st t (.setType ty)

theorem inv_gstep (k : Cls C S) (P : C → Prop) (hL : LawfulOn k.ghost P) (Q : C → C → Prop) (hQ : QuietLaw k P Q) (n : ℕ) (hn : 1 ≤ n)
    (g : ℕ → St C S (ℕ → ℝ)) (t : Bool) (hI : InvOn k.ghost P n g t) (op : POp C S) :
    InvOn k.ghost P n (fun j => gstep k (g j) op) (taintOn k.ghost Q (g 0) t op.op) := by
  cases op with
  | eval stru => exact inv_on_eval k.ghost P hL Q n hn g t hI stru
  | setStructure stru => exact inv_on_setStructure k.ghost P Q n hn g t hI stru
  | configure f clicks r => exact inv_on_configure k.ghost P Q hQ.toQuietOn n hn g t hI f clicks
  | setType ty =>
    have hs := inv_on_setType k.ghost P Q n hn g t hI ty
    have hf := fun j (hj : j < n) => hs.fields j hj
    have carry : ∀ (g' : ℕ → St C S (ℕ → ℝ)) (t' : Bool), (∀ j < n, gstep k (g j) (.setType ty) = g' j) → InvOn k.ghost P n g' t' →
        InvOn k.ghost P n (fun j => gstep k (g j) (.setType ty)) t' := by
      intro g' t' e h
      refine ⟨⟨fun j hj => ?_, fun j hj => ?_, ?_, ?_, ?_⟩, ?_⟩
      · show ctl (gstep k (g j) _) = ctl (gstep k (g 0) _)
        rw [e j hj, e 0 hn]; exact h.sync j hj
      · show (gstep k (g j) _).cpuindex = _
        rw [e j hj]; exact h.idx j hj
      · show (gstep k (g 0) _).ncpu = _
        rw [e 0 hn]; exact h.ncpu
      · show Bnd (gstep k (g 0) _)
        rw [e 0 hn]; exact h.bnd
      · intro ht
        have := h.good ht
        show (gstep k (g 0) _).pqTick ≥ (gstep k (g 0) _).valTick ∨ (gstep k (g 0) _).last = none ∨
          ((gstep k (g 0) _).last = some (gstep k (g 0) _).cur ∧
            ∑ j ∈ Finset.range n, (gstep k (g j) _).value = basicValue k.ghost (gstep k (g 0) _).cfg (gstep k (g 0) _).cur)
        rw [Finset.sum_congr rfl fun j hj => congrArg St.value (e j (Finset.mem_range.1 hj)), e 0 hn]
        exact this
      · intro ht
        show (gstep k (g 0) _).pqTick ≥ (gstep k (g 0) _).valTick ∨ (gstep k (g 0) _).last = none ∨ P (gstep k (g 0) _).cfg
        rw [e 0 hn]
        exact h.ord ht
    by_cases hc : (step k.ghost (g 0) (.setType ty)).evtype = (g 0).evtype
    · refine carry _ _ (fun j hj => ?_) hs
      show (if (step k.ghost (g j) (.setType ty)).evtype = (g j).evtype then _ else _) = _
      rw [if_pos]
      exact (hf j hj).2.2.2.1.trans (hc.trans (hI.fields j hj).2.2.2.1.symm)
    · have htt : taintOn k.ghost Q (g 0) t (POp.setType ty : POp C S).op = false := by
        show (t && decide _) = false
        have : ¬ (setTypeSt k.ghost ty (g 0)).evtype = (g 0).evtype := hc
        rw [decide_eq_false this, Bool.and_false]
      have htt' : taintOn k.ghost Q (g 0) t (.setType ty) = false := htt
      rw [htt'] at hs
      rw [htt]
      set c0 := (step k.ghost (g 0) (.setType ty)).cfg with hc0
      set s0 := (step k.ghost (g 0) (.setType ty)).cur with hs0
      refine carry (fun j => step k.ghost (step k.ghost (g j) (.setType ty)) (.configure (fun _ => (k.reset s0 c0).1) (k.reset s0 c0).2)) _
        (fun j hj => ?_) ?_
      · have h1 : ¬ (step k.ghost (g j) (.setType ty)).evtype = (g j).evtype := by
          intro h
          exact hc ((hf j hj).2.2.2.1.symm.trans (h.trans (hI.fields j hj).2.2.2.1))
        have h2 : (step k.ghost (g j) (.setType ty)).cfg = c0 := (hf j hj).2.1
        have h3 : (step k.ghost (g j) (.setType ty)).cur = s0 := (hf j hj).2.2.1
        show (if (step k.ghost (g j) (.setType ty)).evtype = (g j).evtype then _ else _) = _
        rw [if_neg h1, h2, h3]
      · have hl : (setTypeSt k.ghost ty (g 0)).last = none := by
          rcases setType_cases k.ghost ty (g 0) with e | ⟨-, e⟩
          · exact absurd (congrArg St.evtype e) hc
          · exact e
        cases hr : (k.reset s0 c0).2 with
        | true =>
          have := inv_on_configure k.ghost P Q hQ.toQuietOn n hn (fun j => step k.ghost (g j) (.setType ty)) false hs
            (fun _ => (k.reset s0 c0).1) true
          exact this
        | false => exact inv_on_reset k.ghost P n (fun j => step k.ghost (g j) (.setType ty)) hs hl _

/-- One call keeps the agreement of a job with its abstract state. -/
theorem ready_step (k : Cls C S) (hp : ParOk k) (P : C → Prop) (n : ℕ) (hn : 1 ≤ n) (hL : LawfulOn k.ghost P) (Q : C → C → Prop)
    (hQ : QuietLaw k P Q) (g : ℕ → St C S (ℕ → ℝ))
    (t : Bool) (hI : InvOn k.ghost P n g t) (p : DC C S) (j : ℕ) (hj : j < n) (hph : p.h = erase (g j)) (hr : t = false → Ready k P (g j) p.d)
    (op : POp C S) (ht : taintOn k.ghost Q (g j) t op.op = false) :
    Ready k P (gstep k (g j) op) (dcStep k p op).d := by
  have hb : Bnd (g j) := bnd_ctl _ _ (hI.sync j hj) hI.bnd
  cases op with
  | eval stru =>
    have hful : (evalSt k.ghost (g j) stru).used = .basic ∨ t = false := by
      have ht' : (t && decide ((evalSt k.ghost (g j) stru).used ≠ .basic)) = false := ht
      simp only [Bool.and_eq_false_iff, decide_eq_false_iff_not, not_not] at ht'
      exact ht'.symm
    have hA := agrees_eval k hp P hL.custom (g j) hb p.d stru (hful.imp_right hr)
    show Ready k P (evalSt k.ghost (g j) stru) (evalData k p.h stru p.d)
    rw [hph]
    obtain ⟨k1, k2, -⟩ := eval_keeps k.ghost (g j) stru hb
    have hctl := (ctl_iff _ _).1 (ctl_evalSt k.ghost stru _ _ (hI.sync j hj))
    have hful0 : (evalSt k.ghost (g 0) stru).used = .basic ∨ t = false := by
      rw [← hctl.2.2.2.2.2.2.2.1]
      exact hful
    obtain ⟨-, c2, c3⟩ := eval_core_on k.ghost P hL n hn g t hI stru hful0
    have hcur : (evalSt k.ghost (g j) stru).cur = stru := hctl.2.2.2.2.1.trans c2
    by_cases hev : (g j).evtype = .optimized ∨ (g j).evtype = .check
    · right; right
      have hev0 : (g 0).evtype = .optimized ∨ (g 0).evtype = .check := by
        rw [← (hI.fields j hj).2.2.2.1]; exact hev
      rw [hcur]
      refine ⟨hctl.2.2.2.1.trans (c3 hev0), ?_, hA⟩
      obtain ⟨c0, hc⟩ := eval_cfg k.ghost (g j) stru
      rw [hc]
      exact hL.keep _ _
    · right; left
      apply k1.last
      · rw [k2]; exact fun h => hev (Or.inl h)
      · rw [k2]; exact fun h => hev (Or.inr h)
  | setStructure stru =>
    simp only [taintOn, POp.op, decide_eq_false_iff_not] at ht
    show Ready k P (setStru k.ghost stru (g j)) _
    rcases unprimed ht with h | h
    · exact Or.inl h
    · exact Or.inr (Or.inl h)
  | configure f clicks r =>
    cases clicks with
    | true =>
      left
      show (g j).clock + 1 ≥ (g j).valTick
      have := hb.val
      omega
    | false =>
      simp only [taintOn, POp.op, Bool.not_false, Bool.true_and, Bool.or_eq_false_iff, decide_eq_false_iff_not, not_and, not_not] at ht
      obtain ⟨h1, h2⟩ := ht
      show Ready k P (step k.ghost (g j) (.configure f false)) p.d
      rcases hr h1 with hg | hg | ⟨hg1, hg2, hg3⟩
      · exact Or.inl hg
      · exact Or.inr (Or.inl hg)
      by_cases hpr : Primed (g j)
      · exact Or.inr (Or.inr ⟨hg1, hQ.keep _ _ (h2 hpr) hg2, agrees_quiet hQ (h2 hpr) hg3⟩)
      · by_cases hl : (g j).last = none
        · exact Or.inr (Or.inl hl)
        · exact Or.inl (not_lt.1 fun hh => hpr ⟨hl, hh⟩)
  | setType ty =>
    have ht' : (t && decide ((setTypeSt k.ghost ty (g j)).evtype = (g j).evtype)) = false := ht
    have he : step k.control p.h (.setType ty) = erase (step k.ghost (g j) (.setType ty)) := by
      rw [hph, ← blank_ghost]
      exact (erase_step k.ghost (g j) (.setType ty)).symm
    have he1 : (step k.control p.h (.setType ty)).evtype = (setTypeSt k.ghost ty (g j)).evtype := by rw [he]; rfl
    have he2 : p.h.evtype = (g j).evtype := by rw [hph]; rfl
    by_cases hc : (setTypeSt k.ghost ty (g j)).evtype = (g j).evtype
    · have hg : gstep k (g j) (.setType ty) = setTypeSt k.ghost ty (g j) := if_pos hc
      have hd : (dcStep k p (.setType ty)).d = p.d := by
        show (if (step k.control p.h (.setType ty)).evtype = p.h.evtype then (⟨_, p.d⟩ : DC C S) else ⟨_, _⟩).d = _
        rw [if_pos (by rw [he1, he2]; exact hc)]
      rw [hg, hd]
      have htf : t = false := by
        rw [decide_eq_true hc, Bool.and_true] at ht'
        exact ht'
      rcases setType_cases k.ghost ty (g j) with e | ⟨e, -⟩
      · rw [e]
        exact hr htf
      · exact absurd hc e
    · right; left
      have hg : gstep k (g j) (.setType ty) = step k.ghost (setTypeSt k.ghost ty (g j)) (.configure
          (fun _ => (k.reset (setTypeSt k.ghost ty (g j)).cur (setTypeSt k.ghost ty (g j)).cfg).1)
          (k.reset (setTypeSt k.ghost ty (g j)).cur (setTypeSt k.ghost ty (g j)).cfg).2) := if_neg hc
      have hl : (setTypeSt k.ghost ty (g j)).last = none := by
        rcases setType_cases k.ghost ty (g j) with e | ⟨-, e⟩
        · exact absurd (congrArg St.evtype e) hc
        · exact e
      rw [hg]
      generalize (k.reset (setTypeSt k.ghost ty (g j)).cur (setTypeSt k.ghost ty (g j)).cfg) = r
      cases h : r.2
      · exact hl
      · exact hl

/-- Whether the stored value may be out of step with the last evaluated structure or the configuration after a history, see `taintOn`. -/
noncomputable def taintRun (k : Cls C S) (Q : C → C → Prop) : DC C S → Bool → List (POp C S) → Bool
  | _, t, [] => t
  | s, t, op :: ops => taintRun k Q (dcStep k s op) (taintOn k.control Q s.h t op.op) ops

theorem ready_run (k : Cls C S) (hp : ParOk k) (P : C → Prop) (n : ℕ) (hn : 1 ≤ n) (hL : LawfulOn k.ghost P) (Q : C → C → Prop)
    (hQ : QuietLaw k P Q) (ops : List (POp C S)) : ∀ (g : ℕ → St C S (ℕ → ℝ)) (t : Bool) (_ : InvOn k.ghost P n g t) (p : ℕ → DC C S)
    (_ : ∀ j < n, (p j).h = erase (g j)) (_ : t = false → ∀ j < n, Ready k P (g j) (p j).d),
    let g' := fun j => ops.foldl (gstep k) (g j)
    let t' := taintRun k Q (p 0) t ops
    InvOn k.ghost P n g' t' ∧ (∀ j < n, (dcRun k (p j) ops).h = erase (g' j)) ∧
      (t' = false → ∀ j < n, Ready k P (g' j) (dcRun k (p j) ops).d) := by
  induction ops with
  | nil => intro g t hI p hp hr; exact ⟨hI, hp, hr⟩
  | cons op ops ih =>
    intro g t hI p hph hr
    have hI' := inv_gstep k P hL Q hQ n hn g t hI op
    have hp' : ∀ j < n, (dcStep k (p j) op).h = erase (gstep k (g j) op) := fun j hj => erase_gstep k (p j) (g j) (hph j hj) op
    have h0 : taintOn k.control Q (p 0).h t op.op = taintOn k.ghost Q (g 0) t op.op := by
      rw [hph 0 hn, ← blank_ghost]
      exact taintOn_erase k.ghost Q (g 0) t op
    show InvOn k.ghost P n _ (taintRun k Q (dcStep k (p 0) op) (taintOn k.control Q (p 0).h t op.op) ops) ∧ _
    rw [← h0] at hI'
    refine ih (fun j => gstep k (g j) op) _ hI' (fun j => dcStep k (p j) op) hp' ?_
    intro ht j hj
    refine ready_step k hp P n hn hL Q hQ g t hI (p j) j hj (hph j hj) (fun h => hr h j hj) op ?_
    rw [taintOn_ctl k.ghost Q (g j) (g 0) t (hI.sync j hj) op, ← h0]
    exact ht

theorem taintRun_append (k : Cls C S) (Q : C → C → Prop) (a b : List (POp C S)) : ∀ (s : DC C S) (t : Bool),
    taintRun k Q s t (a ++ b) = taintRun k Q (dcRun k s a) (taintRun k Q s t a) b := by
  induction a with
  | nil => intro s t; rfl
  | cons op a ih => intro s t; exact ih _ _

/-- While the value is in step and a fast update may follow, the configuration is in order. -/
theorem settled_of_untainted (k : Cls C S) (hp : ParOk k) (P : C → Prop) (n : ℕ) (hn : 1 ≤ n)
    (hL : LawfulOn k.ghost P) (Q : C → C → Prop) (hQ : QuietLaw k P Q) (c : C) (e : S) (ops : List (POp C S))
    (ht : taintRun k Q (dcInit k c e 0 n) false ops = false) (hpr : Primed (dcRun k (dcInit k c e 0 n) ops).h) :
    P (dcRun k (dcInit k c e 0 n) ops).h.cfg := by
  let g0 : ℕ → St C S (ℕ → ℝ) := fun j => { History.init c e (j : Int) (n : Int) with evtype := .optimized }
  have hI0 : InvOn k.ghost P n g0 false :=
    ⟨⟨fun _ _ => rfl, fun _ _ => rfl, rfl, ⟨Nat.le_refl _, Nat.le_refl _, fun _ _ => rfl⟩, fun _ => Or.inr (Or.inl rfl)⟩, fun _ => Or.inr (Or.inl rfl)⟩
  obtain ⟨hI, hph, -⟩ := ready_run k hp P n hn hL Q hQ ops g0 false hI0 (fun j => dcInit k c e j n) (fun _ _ => rfl)
    (fun _ _ _ => Or.inr (Or.inl rfl))
  have h0 : (dcRun k (dcInit k c e 0 n) ops).h = erase (ops.foldl (gstep k) (g0 0)) := hph 0 hn
  rw [h0] at hpr ⊢
  rcases hI.ord ht with h | h | h
  · exact absurd hpr.2 (not_lt.2 h)
  · exact absurd h hpr.1
  · exact h

/-- **Joint history**: the jobs of a calculator after the same history, all evaluating `stru` at the end: the data of every job belong to the same
configuration, one in order, and to `stru`, and their values add up to the value of a full evaluation in one process. -/
theorem joint_history (k : Cls C S) (hp : ParOk k) (P : C → Prop) (n : ℕ) (hn : 1 ≤ n)
    (hL : LawfulOn k.ghost P) (Q : C → C → Prop) (hQ : QuietLaw k P Q) (c : C) (e : S) (ops : List (POp C S)) (stru : S)
    (ht : taintRun k Q (dcInit k c e 0 n) false (ops ++ [.eval stru]) = false) :
    P (dcEval k (dcRun k (dcInit k c e 0 n) ops) stru).h.cfg ∧
    ∃ v : ℕ → ℕ → ℝ, (∑ j ∈ Finset.range n, v j) =
        basicValue k.ghost (dcEval k (dcRun k (dcInit k c e 0 n) ops) stru).h.cfg stru ∧
      ∀ j < n, (dcEval k (dcRun k (dcInit k c e j n) ops) stru).h.cfg = (dcEval k (dcRun k (dcInit k c e 0 n) ops) stru).h.cfg ∧
        Agrees k (dcEval k (dcRun k (dcInit k c e j n) ops) stru).d (dcEval k (dcRun k (dcInit k c e 0 n) ops) stru).h.cfg stru (v j) := by
  let g0 : ℕ → St C S (ℕ → ℝ) := fun j => { History.init c e (j : Int) (n : Int) with evtype := .optimized }
  have hI0 : InvOn k.ghost P n g0 false :=
    ⟨⟨fun _ _ => rfl, fun _ _ => rfl, rfl, ⟨Nat.le_refl _, Nat.le_refl _, fun _ _ => rfl⟩, fun _ => Or.inr (Or.inl rfl)⟩, fun _ => Or.inr (Or.inl rfl)⟩
  obtain ⟨hI, hph, hr⟩ := ready_run k hp P n hn hL Q hQ ops g0 false hI0 (fun j => dcInit k c e j n) (fun _ _ => rfl)
    (fun _ _ _ => Or.inr (Or.inl rfl))
  rw [taintRun_append] at ht
  set t := taintRun k Q (dcInit k c e 0 n) false ops with hts
  have hts' : taintRun k Q (dcInit k c e (0 : ℕ) n) false ops = t := rfl
  simp only [hts'] at hI hr
  set g := fun j => ops.foldl (gstep k) (g0 j) with hg
  have hful : (evalSt k.ghost (g 0) stru).used = .basic ∨ t = false := by
    have ht' : (t && decide ((evalSt k.control (dcRun k (dcInit k c e 0 n) ops).h stru).used ≠ .basic)) = false := ht
    have hp0 : (dcRun k (dcInit k c e 0 n) ops).h = erase (g 0) := hph 0 hn
    rw [hp0, ← blank_ghost, ← erase_evalSt] at ht'
    simp only [Bool.and_eq_false_iff, decide_eq_false_iff_not, not_not] at ht'
    exact ht'.symm
  obtain ⟨c1, -, -⟩ := eval_core_on k.ghost P hL n hn g t hI stru hful
  have hh : ∀ j < n, (dcEval k (dcRun k (dcInit k c e j n) ops) stru).h = erase (evalSt k.ghost (g j) stru) := by
    intro j hj
    show evalSt k.control (dcRun k (dcInit k c e j n) ops).h stru = _
    rw [hph j hj, erase_evalSt, blank_ghost]
  have hcfg : ∀ j < n, (dcEval k (dcRun k (dcInit k c e j n) ops) stru).h.cfg = (evalSt k.ghost (g 0) stru).cfg := by
    intro j hj
    rw [hh j hj]
    exact ((ctl_iff _ _).1 (ctl_evalSt k.ghost stru _ _ (hI.sync j hj))).2.2.2.2.2.1
  have h0 : (dcEval k (dcRun k (dcInit k c e 0 n) ops) stru).h.cfg = (evalSt k.ghost (g 0) stru).cfg := hcfg 0 hn
  refine ⟨?_, fun j => (evalSt k.ghost (g j) stru).value, ?_, fun j hj => ⟨(hcfg j hj).trans h0.symm, ?_⟩⟩
  · rw [h0]
    obtain ⟨c0, hc⟩ := eval_cfg k.ghost (g 0) stru
    rw [hc]
    exact hL.keep _ _
  · rw [h0]; exact c1
  · have hb : Bnd (g j) := bnd_ctl _ _ (hI.sync j hj) hI.bnd
    have hctl := (ctl_iff _ _).1 (ctl_evalSt k.ghost stru _ _ (hI.sync j hj))
    have hful' : (evalSt k.ghost (g j) stru).used = .basic ∨ Ready k P (g j) (dcRun k (dcInit k c e j n) ops).d := by
      rcases hful with h | h
      · left
        rw [hctl.2.2.2.2.2.2.2.1]
        exact h
      · exact Or.inr (hr h j hj)
    have hA := agrees_eval k hp P hL.custom (g j) hb (dcRun k (dcInit k c e j n) ops).d stru hful'
    rw [← hph j hj] at hA
    have hc : (evalSt k.ghost (g j) stru).cfg = (evalSt k.ghost (g 0) stru).cfg := hctl.2.2.2.2.2.1
    rw [h0, ← hc]
    exact hA

end Verif.DebyeHist
