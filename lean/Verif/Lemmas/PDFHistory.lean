import Verif.Model.PDFHistory
import Verif.Props.History
import Verif.Props.PDFGrid
/-! The data of a PDFCalculator over a history follow the abstract values of the calculator model. -/
set_option linter.unusedSectionVars false
namespace Verif.PDFHist
open Verif.Eval Verif.Diff Verif.History Verif.PDFGrid Verif.PDFCache

variable {C S B G : Type}

/-! ### The evaluator state does not depend on the value -/

/-- The calculator without its value. -/
def blank (K : History.Calc C S B G) : History.Calc C S B Unit :=
  { K with
    con := fun _ _ _ _ _ => ()
    close := fun _ _ => true }

/-- The state without the value. -/
def erase (st : St C S G) : St C S Unit :=
  { st with
    value := ()
    stash := ()
    saved := () }

variable [AddCommGroup G]

theorem erase_setStru (K : History.Calc C S B G) (stru : S) (st : St C S G) :
    erase (setStru K stru st) = setStru (blank K) stru (erase st) := by
  unfold setStru clickPq erase blank
  dsimp only
  split <;> rfl

theorem erase_basicFinal (K : History.Calc C S B G) (cpu ncpu : Int) (stru : S) (st : St C S G) :
    erase (basicFinal K cpu ncpu stru st) = basicFinal (blank K) cpu ncpu stru (erase st) := by
  have h := erase_setStru K stru (setUsed .basic st)
  unfold basicFinal clickVal
  have e : setUsed EvType.basic (erase st) = erase (setUsed .basic st) := rfl
  rw [e, ← h]
  rfl

theorem erase_midFast (K : History.Calc C S B G) (s0 stru : S) (d : SD) (st : St C S G) :
    erase (midFast K s0 stru d st) = midFast (blank K) s0 stru d (erase st) := by
  unfold midFast
  rw [erase_setStru]
  rfl

theorem erase_fastFinal (K : History.Calc C S B G) (s0 stru : S) (d : SD) (st : St C S G) :
    erase (fastFinal K s0 stru d st) = fastFinal (blank K) s0 stru d (erase st) := by
  have h := erase_midFast K s0 stru d st
  unfold fastFinal clickVal setLast
  rw [← h]
  rfl

theorem fastChoice_erase (K : History.Calc C S B G) (stru : S) (st : St C S G) :
    fastChoice (blank K) (erase st) stru = fastChoice K st stru := rfl

theorem erase_optFinal (K : History.Calc C S B G) (stru : S) (st : St C S G) :
    erase (optFinal K stru st) = optFinal (blank K) stru (erase st) := by
  unfold optFinal
  rw [fastChoice_erase]
  cases fastChoice K st stru with
  | none =>
    show setLast (erase (basicFinal K st.cpuindex st.ncpu stru st)) = _
    rw [erase_basicFinal]
    rfl
  | some p =>
    obtain ⟨s0, d⟩ := p
    dsimp only
    rw [← erase_setStru]
    show erase (if (setStru K stru st).pqTick ≥ st.valTick then _ else _) = if (setStru K stru st).pqTick ≥ st.valTick then _ else _
    split
    · show setLast (erase (basicFinal K _ _ stru _)) = _
      rw [erase_basicFinal, erase_midFast]
      rfl
    · rw [erase_fastFinal]
      rfl

theorem erase_evalSt (K : History.Calc C S B G) (st : St C S G) (stru : S) :
    erase (evalSt K st stru) = evalSt (blank K) (erase st) stru := by
  rw [evalSt_eq, evalSt_eq]
  have e : (erase st).evtype = st.evtype := rfl
  rw [e]
  cases st.evtype with
  | none => exact erase_basicFinal _ _ _ _ _
  | basic => exact erase_basicFinal _ _ _ _ _
  | optimized => exact erase_optFinal _ _ _
  | check =>
    dsimp only
    unfold checkFinal
    dsimp only
    rw [← erase_optFinal]
    show erase (if (optFinal K stru st).used = .basic then _ else _) = if (optFinal K stru st).used = .basic then _ else _
    split
    · rfl
    · show setUsed .check (erase (basicFinal K _ _ stru _)) = _
      rw [erase_basicFinal]
      rfl

theorem erase_step (K : History.Calc C S B G) (st : St C S G) (op : POp C S) :
    erase (step K st op.op) = step (blank K) (erase st) op.op := by
  cases op with
  | eval stru => exact erase_evalSt K st stru
  | setStructure stru => exact erase_setStru K stru st
  | configure f clicks _ =>
    cases clicks <;> rfl
  | setType t =>
    show erase (setTypeSt K t st) = setTypeSt (blank K) t (erase st)
    unfold setTypeSt
    show erase (if st.evtype = t then _ else if t = .none then _ else if t ≠ .basic ∧ K.canStash = false then _ else _) =
      if st.evtype = t then _ else if t = .none then _ else if t ≠ .basic ∧ K.canStash = false then _ else _
    split
    · rfl
    · split
      · rfl
      · split <;> rfl

/-! ### Removal with other lists of bonds -/

theorem chop_map {α β : Type} (f : α → β) (ncpu : Int) (L : List α) : ∀ n, (chop ncpu n L).map f = chop ncpu n (L.map f) := by
  induction L with
  | nil => intro n; rfl
  | cons a L ih =>
    intro n
    simp only [chop, List.map_cons]
    split
    · exact ih _
    · rw [List.map_cons, ih]

/-- Bond generators whose lists of bonds give the same sums for every pair of sites give the same sums of removed contributions, job by job. -/
theorem removeTrace_congr {G : Type} [AddCommGroup G] (f f' : ℕ → ℕ → B → G) (gen gen' : Gen B) (c c' : ℕ → ℕ → List B)
    (hg : GenSpec gen c) (hg' : GenSpec gen' c') (h : ∀ i j, ((c i j).map (f i j)).sum = ((c' i j).map (f' i j)).sum)
    (full : Bool) (use : ℕ → ℕ → Bool) (cnt : ℕ) (pop : List ℕ) (cpuindex ncpu : Int) :
    (removeTrace gen full use cnt pop cpuindex ncpu).1 = (removeTrace gen' full use cnt pop cpuindex ncpu).1 ∧
      traceSum f (removeTrace gen full use cnt pop cpuindex ncpu).2 = traceSum f' (removeTrace gen' full use cnt pop cpuindex ncpu).2 := by
  have hb : ∀ (anchors suffix : List ℕ) (todo pos : ℕ), (removeBlocks gen full use pop anchors suffix todo pos).map (traceSum f) =
      (removeBlocks gen' full use pop anchors suffix todo pos).map (traceSum f') := by
    intro anchors suffix
    induction suffix with
    | nil => intro todo pos; cases todo <;> rfl
    | cons i0 rest ih =>
      intro todo pos
      cases todo with
      | zero => rfl
      | succ todo =>
        simp only [removeBlocks, List.map_cons]
        rw [ih, traceSum_block f gen c hg, traceSum_block f' gen' c' hg']
        congr 2
        refine List.map_congr_left fun j _ => ?_
        unfold pairW
        rw [h]
  have hb' := hb (if pop.isEmpty then pop else pop ++ complementaryIndices cnt pop) (if pop.isEmpty then pop else pop ++ complementaryIndices cnt pop)
    (if full then (if pop.isEmpty then pop else pop ++ complementaryIndices cnt pop).length else pop.length) 0
  have e : (removeAll gen full use cnt pop).map (traceSum f) = (removeAll gen' full use cnt pop).map (traceSum f') := hb'
  rw [removeTrace_eq, removeTrace_eq]
  refine ⟨?_, ?_⟩
  · have := congrArg List.length e
    rw [List.length_map, List.length_map] at this
    rw [this]
  · rw [traceSum_flatten, traceSum_flatten, chop_map, chop_map, e]

/-! ### Values -/

/-- What a bond adds at the step `n` of the r grid: the values of its peak on the steps it covers, for the steps that are looked at. -/
noncomputable def Cls.con (k : Cls C S) (seen : C → ℤ → Prop) (c : C) (s : S) (i j : ℕ) (b : Debye.Bond) (n : ℤ) : ℝ :=
  open Classical in
  if seen c n ∧ covers (k.prof c) (k.par c).dr (bondPeak (k.cache c s) ⟨i, j, 1, b⟩) n then
    peakAt (k.prof c) (k.par c).dr (bondPeak (k.cache c s) ⟨i, j, 1, b⟩) n else 0

/-- The calculator with the values at the steps that are looked at. -/
noncomputable def Cls.ghost (k : Cls C S) (seen : C → ℤ → Prop) : History.Calc C S Debye.Bond (ℤ → ℝ) where
  fullSum := false
  fixedIdx := false
  canStash := true
  hasPairMask := k.hasPairMask
  rule := k.rule
  count := k.count
  gen c s := k.gen c s (k.lim c s)
  use := k.use
  con := k.con seen
  custom := k.custom
  diff := k.diff
  close _ _ := true

theorem blank_ghost (k : Cls C S) (seen : C → ℤ → Prop) : blank (k.ghost seen) = k.control := rfl

/-- The steps looked at are inside the calculation range of every structure. -/
def InCalc (k : Cls C S) (seen : C → ℤ → Prop) : Prop :=
  ∀ c s n, seen c n → (k.lim c s).clo ≤ n ∧ n < (k.lim c s).chi

/-- The data are those of the configuration, the structure and the value. -/
structure Agrees (k : Cls C S) (seen : C → ℤ → Prop) (d : Data) (c : C) (s : S) (v : ℤ → ℝ) : Prop where
  lim : d.lim = k.lim c s
  cache : d.cache = k.cache c s
  len : (d.value.length : ℤ) = d.lim.count
  val : ∀ n, seen c n → at_ d.lim.clo d.value n = v n

theorem con_scale (k : Cls C S) (seen : C → ℤ → Prop) (c : C) (s : S) (t : Contrib Debye.Bond) (n : ℤ) (hn : seen c n) :
    (if covers (k.prof c) (k.par c).dr (bondPeak (k.cache c s) t) n then peakAt (k.prof c) (k.par c).dr (bondPeak (k.cache c s) t) n else 0) =
      (t.scale • k.con seen c s t.i0 t.i1 t.bond) n := by
  have hc : covers (k.prof c) (k.par c).dr (bondPeak (k.cache c s) t) n ↔
      covers (k.prof c) (k.par c).dr (bondPeak (k.cache c s) ⟨t.i0, t.i1, 1, t.bond⟩) n := Iff.rfl
  show _ = t.scale • k.con seen c s t.i0 t.i1 t.bond n
  unfold Cls.con
  by_cases h : covers (k.prof c) (k.par c).dr (bondPeak (k.cache c s) t) n
  · have h2 := And.intro hn (hc.1 h)
    rw [if_pos h, if_pos h2]
    unfold peakAt bondPeak
    dsimp only
    rw [zsmul_eq_mul]
    push_cast
    ring
  · rw [if_neg h, if_neg fun x => h (hc.2 x.2), smul_zero]

/-- The same for data whose limits contain the steps looked at. -/
structure Near (k : Cls C S) (seen : C → ℤ → Prop) (d : Data) (c : C) (s : S) (v : ℤ → ℝ) : Prop where
  mem : ∀ n, seen c n → d.lim.clo ≤ n ∧ n < d.lim.chi
  cache : d.cache = k.cache c s
  len : (d.value.length : ℤ) = d.lim.count
  val : ∀ n, seen c n → at_ d.lim.clo d.value n = v n

theorem Agrees.near {k : Cls C S} {seen : C → ℤ → Prop} (hin : InCalc k seen) {d : Data} {c : C} {s : S} {v : ℤ → ℝ} (h : Agrees k seen d c s v) :
    Near k seen d c s v := ⟨fun n hn => by rw [h.lim]; exact hin c s n hn, h.cache, h.len, h.val⟩

theorem near_add (k : Cls C S) (seen : C → ℤ → Prop) (d : Data) (c : C) (s : S) (v : ℤ → ℝ)
    (h : Near k seen d c s v) (t : Contrib Debye.Bond) :
    Near k seen (addBond k c d t) c s (v + t.scale • k.con seen c s t.i0 t.i1 t.bond) := by
  refine ⟨h.mem, h.cache, ?_, ?_⟩
  · show ((addPeak _ _ _ _ _).length : ℤ) = _
    rw [length_addPeak]
    exact h.len
  · intro n hn
    show at_ d.lim.clo (addPeak _ _ _ _ _) n = _
    rw [at_addPeak _ _ _ _ _ h.len, h.val n hn, Pi.add_apply, ← con_scale k seen c s t n hn, h.cache]
    obtain ⟨h1, h2⟩ := h.mem n hn
    simp only [h1, h2, true_and]

theorem near_adds (k : Cls C S) (seen : C → ℤ → Prop) (c : C) (s : S) (tr : List (Contrib Debye.Bond)) :
    ∀ (d : Data) (v : ℤ → ℝ), Near k seen d c s v →
      Near k seen (tr.foldl (addBond k c) d) c s (v + traceSum (k.con seen c s) tr) := by
  induction tr with
  | nil => intro d v h; simpa [traceSum] using h
  | cons t tr ih =>
    intro d v h
    have := ih _ _ (near_add k seen d c s v h t)
    rw [List.foldl_cons]
    simpa [traceSum, add_assoc] using this

theorem lim_adds (k : Cls C S) (c : C) (tr : List (Contrib Debye.Bond)) : ∀ d : Data, (tr.foldl (addBond k c) d).lim = d.lim := by
  induction tr with
  | nil => intro d; rfl
  | cons t tr ih => intro d; rw [List.foldl_cons, ih]; rfl

theorem agrees_adds (k : Cls C S) (seen : C → ℤ → Prop) (hin : InCalc k seen) (c : C) (s : S) (tr : List (Contrib Debye.Bond))
    (d : Data) (v : ℤ → ℝ) (h : Agrees k seen d c s v) :
    Agrees k seen (tr.foldl (addBond k c) d) c s (v + traceSum (k.con seen c s) tr) := by
  have hn := near_adds k seen c s tr d v (h.near hin)
  exact ⟨(lim_adds k c tr d).trans h.lim, hn.cache, hn.len, hn.val⟩

theorem count_nonneg_of {l : Limits} (h : l.clo ≤ l.chi) : (l.count.toNat : ℤ) = l.count := by
  have : l.count = l.chi - l.clo := rfl
  omega

/-- The limits are in order. -/
def Ordered (k : Cls C S) : Prop := ∀ c s, (k.lim c s).clo ≤ (k.lim c s).chi

theorem agrees_reset (k : Cls C S) (seen : C → ℤ → Prop) (ho : Ordered k) (c : C) (s : S) (d : Data) :
    Agrees k seen (resetValue k c s d) c s 0 := by
  refine ⟨rfl, rfl, ?_, ?_⟩
  · show ((List.replicate _ _).length : ℤ) = (k.lim c s).count
    rw [List.length_replicate, count_nonneg_of (ho c s)]
  · intro n _
    exact at_replicate _ _ _

theorem length_restore {α : Type} (st : List α) (stclo clo : ℤ) (v : List α) : (restore st stclo clo v).length = v.length := by
  unfold restore
  dsimp only
  split
  · rw [length_copyLoop]
  · rw [List.length_append, length_copyLoop, ← List.length_append, List.take_append_drop]

theorem agrees_restore (k : Cls C S) (seen : C → ℤ → Prop) (hin : InCalc k seen) (ho : Ordered k) (c : C) (s0 s1 : S) (d : Data) (v : ℤ → ℝ)
    (h : Near k seen d c s0 v) :
    Agrees k seen (restorePartialValue (resetValue k c s1 (stashPartialValue d))) c s1 v := by
  refine ⟨rfl, rfl, ?_, ?_⟩
  · show ((restore _ _ _ _).length : ℤ) = (k.lim c s1).count
    rw [length_restore]
    show ((List.replicate _ _).length : ℤ) = _
    rw [List.length_replicate, count_nonneg_of (ho c s1)]
  · intro n hn
    show at_ (k.lim c s1).clo (restore d.value d.lim.clo (k.lim c s1).clo (List.replicate _ 0)) n = _
    obtain ⟨h1, h2⟩ := hin c s1 n hn
    have hc : (k.lim c s1).count = (k.lim c s1).chi - (k.lim c s1).clo := rfl
    rw [← h.val n hn]
    exact restore_zero _ _ _ _ _ h1 (by omega)

/-! ### Evaluations -/

theorem agrees_full (k : Cls C S) (seen : C → ℤ → Prop) (hin : InCalc k seen) (ho : Ordered k) (c : C) (cpu ncpu : Int) (stru : S) (d : Data) :
    Agrees k seen (fullData k c cpu ncpu stru d) (k.custom stru c).1 stru (bval (k.ghost seen) (k.custom stru c).1 stru cpu ncpu) := by
  unfold fullData
  dsimp only
  have := agrees_adds k seen hin (k.custom stru c).1 stru
    (basicTrace (k.rule (k.count stru) ncpu) (k.gen (k.custom stru c).1 stru (k.lim (k.custom stru c).1 stru)) false
      (k.use (k.custom stru c).1 stru) (k.count stru) cpu ncpu) _ _ (agrees_reset k seen ho (k.custom stru c).1 stru d)
  rw [zero_add] at this
  exact this

/-- The limits `l` serve as well as those of the configuration: they contain the steps looked at, and the bonds removed in a fast update
give the same contributions, job by job. -/
structure Fits (k : Cls C S) (seen : C → ℤ → Prop) (c : C) (s : S) (l : Limits) : Prop where
  mem : ∀ n, seen c n → l.clo ≤ n ∧ n < l.chi
  rem : ∀ use pop cpu ncpu, (removeTrace (k.gen c s l) false use (k.count s) pop cpu ncpu).1 =
      (removeTrace (k.gen c s (k.lim c s)) false use (k.count s) pop cpu ncpu).1 ∧
    traceSum (k.con seen c s) (removeTrace (k.gen c s l) false use (k.count s) pop cpu ncpu).2 =
      traceSum (k.con seen c s) (removeTrace (k.gen c s (k.lim c s)) false use (k.count s) pop cpu ncpu).2

/-- `Q c c'`: a change of the configuration from `c` to `c'` that needs no click.  The steps looked at become no more, and the data stay good. -/
structure QuietLaw (k : Cls C S) (seen : C → ℤ → Prop) (Q : C → C → Prop) : Prop where
  refl : ∀ c, Q c c
  trans : ∀ a b c, Q a b → Q b c → Q a c
  less : ∀ c c', Q c c' → ∀ n, seen c' n → seen c n
  cache : ∀ c c', Q c c' → ∀ s, k.cache c' s = k.cache c s
  fits : ∀ c c', Q c c' → ∀ s, Fits k seen c' s (k.lim c s)
  value : ∀ c c', Q c c' → ∀ s n, seen c' n → basicValue (k.ghost seen) c' s n = basicValue (k.ghost seen) c s n
  empty : ∀ s, k.isEmpty s = true → k.count s = 0

/-- What is known of data and value when the evaluator may make a fast update. -/
def Ready (k : Cls C S) (seen : C → ℤ → Prop) (Q : C → C → Prop) (g : St C S (ℤ → ℝ)) (d : Data) : Prop :=
  g.pqTick ≥ g.valTick ∨ g.last = none ∨
    (g.last = some g.cur ∧ (∃ c, Q c g.cfg ∧ d.lim = k.lim c g.cur) ∧ Near k seen d g.cfg g.cur g.value)

theorem choice_ready {k : Cls C S} {seen : C → ℤ → Prop} {Q : C → C → Prop} (hQ : QuietLaw k seen Q) {g : St C S (ℤ → ℝ)} {d : Data}
    (h : Ready k seen Q g d) {stru s0 : S} {df : SD}
    (hc : fastChoice (k.ghost seen) g stru = some (s0, df)) :
    s0 = g.cur ∧ Fits k seen g.cfg g.cur d.lim ∧ Near k seen d g.cfg g.cur g.value := by
  unfold fastChoice at hc
  rcases h with h | h | ⟨h, ⟨cw, hq, hl⟩, h2⟩
  · cases hl : g.last with
    | none => rw [hl] at hc; simp at hc
    | some x => rw [hl] at hc; simp [h] at hc
  · rw [h] at hc; simp at hc
  · rw [h] at hc
    dsimp only at hc
    refine ⟨?_, by rw [hl]; exact hQ.fits _ _ hq _, h2⟩
    split at hc
    · simp at hc
    · split at hc
      · simp at hc
      · split at hc
        · simp at hc
        · simp only [Option.some.injEq, Prod.mk.injEq] at hc
          exact hc.1.symm

theorem agrees_opt (k : Cls C S) (seen : C → ℤ → Prop) (Q : C → C → Prop) (hQ : QuietLaw k seen Q) (hin : InCalc k seen) (ho : Ordered k)
    (hcu : ∀ s c, (k.custom s c).2 = false → (k.custom s c).1 = c) (g : St C S (ℤ → ℝ)) (hb : Bnd g) (d : Data)
    (stru : S) (h : (optFinal (k.ghost seen) stru g).used = .basic ∨ Ready k seen Q g d) :
    Agrees k seen (optData k (erase g) stru d) (optFinal (k.ghost seen) stru g).cfg stru (optFinal (k.ghost seen) stru g).value := by
  unfold optData
  unfold optFinal at h ⊢
  rw [← blank_ghost k seen, fastChoice_erase]
  cases hf : fastChoice (k.ghost seen) g stru with
  | none =>
    show Agrees k seen (fullData k g.cfg g.cpuindex g.ncpu stru d) (basicFinal (k.ghost seen) g.cpuindex g.ncpu stru g).cfg stru _
    rw [basicFinal_cfg]
    exact agrees_full k seen hin ho g.cfg g.cpuindex g.ncpu stru d
  | some p =>
    obtain ⟨s0, df⟩ := p
    rw [hf] at h
    dsimp only at h ⊢
    rw [← erase_setStru]
    have hp : (erase (setStru (k.ghost seen) stru g)).pqTick = (setStru (k.ghost seen) stru g).pqTick := rfl
    rw [hp]
    have hv : (erase g).valTick = g.valTick := rfl
    rw [hv]
    by_cases hcond : (setStru (k.ghost seen) stru g).pqTick ≥ g.valTick
    · rw [if_pos hcond, if_pos hcond]
      show Agrees k seen (fullData k (k.custom stru g.cfg).1 g.cpuindex g.ncpu stru _)
        (basicFinal (k.ghost seen) g.cpuindex g.ncpu stru (midFast (k.ghost seen) s0 stru df (setUsed .optimized g))).cfg stru _
      rw [basicFinal_cfg, midFast_cfg]
      have := fun d => agrees_full k seen hin ho (k.custom stru g.cfg).1 g.cpuindex g.ncpu stru d
      have ev : (setLast (basicFinal (k.ghost seen) g.cpuindex g.ncpu stru (midFast (k.ghost seen) s0 stru df (setUsed .optimized g)))).value =
          bval (k.ghost seen) (k.custom stru (k.custom stru g.cfg).1).1 stru g.cpuindex g.ncpu := by
        show (basicFinal (k.ghost seen) g.cpuindex g.ncpu stru (midFast (k.ghost seen) s0 stru df (setUsed .optimized g))).value = _
        rw [basicFinal_value, midFast_cfg]
        rfl
      rw [ev]
      exact this _
    · rw [if_neg hcond] at h
      have hr : Ready k seen Q g d := by
        rcases h with h | h
        · have hu : (fastFinal (k.ghost seen) s0 stru df (setUsed .optimized g)).used = .optimized := by
            show (setStru (k.ghost seen) stru _).used = _
            unfold setStru clickPq
            dsimp only
            split <;> rfl
          rw [hu] at h
          cases h
        · exact h
      obtain ⟨rfl, hfit, ha⟩ := choice_ready hQ hr hf
      rw [if_neg hcond, if_neg hcond]
      have hcl : (k.custom stru g.cfg).2 = false := by
        by_contra hne
        rw [Bool.not_eq_false] at hne
        apply hcond
        have e : (setStru (k.ghost seen) stru g).pqTick = g.clock + 1 := by
          unfold setStru clickPq
          have : ((k.ghost seen).custom stru g.cfg).2 = true := hne
          dsimp only
          rw [if_pos this]
        rw [e]
        have := hb.val
        omega
      have hcfg := hcu _ _ hcl
      have e1 : (fastFinal (k.ghost seen) g.cur stru df (setUsed .optimized g)).cfg = g.cfg := by
        show (midFast (k.ghost seen) g.cur stru df (setUsed .optimized g)).cfg = _
        rw [midFast_cfg]
        exact hcfg
      rw [e1]
      have hcc : (erase g).cfg = g.cfg := rfl
      rw [hcc, hcfg]
      have a1 := near_adds k seen g.cfg g.cur
        (removeTrace (k.gen g.cfg g.cur d.lim) false (k.use g.cfg g.cur) (k.count g.cur) df.pop0 g.cpuindex g.ncpu).2 _ _ ha
      have a2 := agrees_restore k seen hin ho g.cfg g.cur stru _ _ a1
      have a3 := agrees_adds k seen hin g.cfg stru
        (addTrace (k.gen g.cfg stru (k.lim g.cfg stru)) false (k.use g.cfg stru) (k.count stru) df.add1
          (removeTrace (k.gen g.cfg g.cur d.lim) false (k.use g.cfg g.cur) (k.count g.cur) df.pop0 g.cpuindex g.ncpu).1 g.ncpu) _ _ a2
      have ev : (fastFinal (k.ghost seen) g.cur stru df (setUsed .optimized g)).value = g.value + traceSum (k.con seen g.cfg g.cur)
            (removeTrace (k.gen g.cfg g.cur d.lim) false (k.use g.cfg g.cur) (k.count g.cur) df.pop0 g.cpuindex g.ncpu).2 +
          traceSum (k.con seen g.cfg stru) (addTrace (k.gen g.cfg stru (k.lim g.cfg stru)) false (k.use g.cfg stru) (k.count stru) df.add1
            (removeTrace (k.gen g.cfg g.cur d.lim) false (k.use g.cfg g.cur) (k.count g.cur) df.pop0 g.cpuindex g.ncpu).1 g.ncpu) := by
        show g.value + remSum (k.ghost seen) (setUsed .optimized g) g.cur df + addSum (k.ghost seen) (setUsed .optimized g) g.cur stru df = _
        unfold remSum addSum
        dsimp only
        have hcg : ((k.ghost seen).custom stru (setUsed EvType.optimized g).cfg).1 = g.cfg := hcfg
        obtain ⟨r1, r2⟩ := hfit.rem (k.use g.cfg g.cur) df.pop0 g.cpuindex g.ncpu
        rw [hcg, r1, r2]
        rfl
      rw [ev]
      exact a3

theorem agrees_eval (k : Cls C S) (seen : C → ℤ → Prop) (Q : C → C → Prop) (hQ : QuietLaw k seen Q) (hin : InCalc k seen) (ho : Ordered k)
    (hcu : ∀ s c, (k.custom s c).2 = false → (k.custom s c).1 = c) (g : St C S (ℤ → ℝ)) (hb : Bnd g) (d : Data)
    (stru : S) (h : (evalSt (k.ghost seen) g stru).used = .basic ∨ Ready k seen Q g d) :
    Agrees k seen (evalData k (erase g) stru d) (evalSt (k.ghost seen) g stru).cfg stru (evalSt (k.ghost seen) g stru).value := by
  have hbas : Agrees k seen (fullData k g.cfg g.cpuindex g.ncpu stru d) (basicFinal (k.ghost seen) g.cpuindex g.ncpu stru g).cfg stru
      (basicFinal (k.ghost seen) g.cpuindex g.ncpu stru g).value := by
    rw [basicFinal_cfg]
    exact agrees_full k seen hin ho g.cfg g.cpuindex g.ncpu stru d
  have hopt := agrees_opt k seen Q hQ hin ho hcu g hb d stru
  rw [evalSt_eq] at h ⊢
  unfold evalData
  have e : (erase g).evtype = g.evtype := rfl
  rw [e]
  cases hev : g.evtype with
  | none => exact hbas
  | basic => exact hbas
  | optimized => rw [hev] at h; exact hopt h
  | check =>
    rw [hev] at h
    dsimp only
    rw [exec_opt, ← blank_ghost k seen, ← erase_optFinal]
    unfold checkFinal at h ⊢
    dsimp only at h ⊢
    have hu : (erase (optFinal (k.ghost seen) stru g)).used = (optFinal (k.ghost seen) stru g).used := rfl
    rw [hu]
    by_cases hc : (optFinal (k.ghost seen) stru g).used = .basic
    · rw [if_pos hc, if_pos hc]
      exact hopt (Or.inl hc)
    · rw [if_neg hc, if_neg hc]
      show Agrees k seen (fullData k (optFinal (k.ghost seen) stru g).cfg g.cpuindex g.ncpu stru _)
        (basicFinal (k.ghost seen) g.cpuindex g.ncpu stru (doSave (optFinal (k.ghost seen) stru g))).cfg stru
        (basicFinal (k.ghost seen) g.cpuindex g.ncpu stru (doSave (optFinal (k.ghost seen) stru g))).value
      rw [basicFinal_cfg]
      exact agrees_full k seen hin ho (optFinal (k.ghost seen) stru g).cfg g.cpuindex g.ncpu stru _


/-! ### Histories of several jobs -/

theorem taint_erase (K : History.Calc C S B G) (st : St C S G) (t : Bool) (op : POp C S) :
    taint (blank K) (erase st) t op.op = taint K st t op.op := by
  cases op with
  | setType ty =>
    have h := erase_step K st (.setType ty)
    show (t && decide ((setTypeSt (blank K) ty (erase st)).evtype = (erase st).evtype)) = _
    have h' : setTypeSt (blank K) ty (erase st) = erase (setTypeSt K ty st) := h.symm
    rw [h']
    rfl
  | eval stru =>
    show (t && decide ((evalSt (blank K) (erase st) stru).used ≠ .basic)) = _
    rw [← erase_evalSt]
    rfl
  | setStructure stru =>
    show decide (Primed (setStru (blank K) stru (erase st))) = _
    rw [← erase_setStru]
    rfl
  | configure f c r => rfl

theorem pcStep_h (k : Cls C S) (s : PC C S) (op : POp C S) : (pcStep k s op).h = step k.control s.h op.op := by
  cases op <;> rfl

/-- Every configuration call of the history that does not click makes a change that needs no click. -/
def Proper (Q : C → C → Prop) (k : Cls C S) (s : PC C S) (ops : List (POp C S)) : Prop :=
  ∀ pre f r post, ops = pre ++ POp.configure f false r :: post → Q (pcRun k s pre).h.cfg (f (pcRun k s pre).h.cfg)

theorem proper_cons {Q : C → C → Prop} {k : Cls C S} {s : PC C S} {op : POp C S} {ops : List (POp C S)} (h : Proper Q k s (op :: ops)) :
    (∀ f r, op = .configure f false r → Q s.h.cfg (f s.h.cfg)) ∧ Proper Q k (pcStep k s op) ops := by
  refine ⟨fun f r e => h [] f r ops (by rw [e]; rfl), fun pre f r post e => ?_⟩
  exact h (op :: pre) f r post (by rw [e]; rfl)

theorem proper_nil {Q : C → C → Prop} {k : Cls C S} {s : PC C S} : Proper Q k s [] := by
  intro pre f r post e
  simp at e

theorem proper_of {Q : C → C → Prop} {k : Cls C S} {s : PC C S} {op : POp C S} {ops : List (POp C S)}
    (h : ∀ f r, op = .configure f false r → Q s.h.cfg (f s.h.cfg)) (h' : Proper Q k (pcStep k s op) ops) : Proper Q k s (op :: ops) := by
  intro pre f r post e
  cases pre with
  | nil => injection e with e1; exact h f r e1
  | cons o pre =>
    injection e with e1 e2
    subst e1
    exact h' pre f r post e2

/-- The jobs follow abstract states of the calculator model. -/
def Follows (k : Cls C S) (seen : C → ℤ → Prop) (Q : C → C → Prop) (n : ℕ) (t : Bool) (p : ℕ → PC C S) : Prop :=
  ∃ g : ℕ → St C S (ℤ → ℝ), Inv (k.ghost seen) n g t ∧ (∀ j < n, (p j).h = erase (g j)) ∧
    (t = false → ∀ j < n, Ready k seen Q (g j) (p j).d)

theorem traceSum_at (f : ℕ → ℕ → B → ℤ → ℝ) (tr : List (Contrib B)) (n : ℤ) :
    traceSum f tr n = traceSum (fun i j b => f i j b n) tr := by
  induction tr with
  | nil => rfl
  | cons t tr ih =>
    simp only [traceSum, List.map_cons, List.sum_cons, Pi.add_apply] at ih ⊢
    rw [ih]
    rfl

theorem value_off (k : Cls C S) (seen : C → ℤ → Prop) (c : C) (s : S) (n : ℤ) (h : ¬ seen c n) : basicValue (k.ghost seen) c s n = 0 := by
  unfold basicValue
  rw [traceSum_at]
  unfold traceSum
  apply List.sum_eq_zero
  intro x hx
  obtain ⟨t, -, rfl⟩ := List.mem_map.1 hx
  show t.scale • k.con seen c s t.i0 t.i1 t.bond n = 0
  unfold Cls.con
  rw [if_neg fun y => h y.1, smul_zero]

theorem value_empty (k : Cls C S) (seen : C → ℤ → Prop) (c : C) (s : S) (h : k.count s = 0) : basicValue (k.ghost seen) c s = 0 := by
  unfold basicValue
  have e : (k.ghost seen).count s = 0 := h
  rw [e]
  rfl

/-- One call keeps the agreement of a job with its abstract state. -/
theorem ready_step (k : Cls C S) (seen : C → ℤ → Prop) (Q : C → C → Prop) (hQ : QuietLaw k seen Q) (hin : InCalc k seen) (ho : Ordered k)
    (hcu : ∀ s c, (k.custom s c).2 = false → (k.custom s c).1 = c) (n : ℕ) (hn : 1 ≤ n) (hL : Lawful (k.ghost seen)) (g : ℕ → St C S (ℤ → ℝ))
    (t : Bool) (hI : Inv (k.ghost seen) n g t) (p : PC C S) (j : ℕ) (hj : j < n) (hp : p.h = erase (g j)) (hr : t = false → Ready k seen Q (g j) p.d)
    (op : POp C S) (hop : ∀ f r, op ≠ .configure f false r) (ht : taint (k.ghost seen) (g j) t op.op = false) :
    Ready k seen Q (step (k.ghost seen) (g j) op.op) (pcStep k p op).d := by
  have hb : Bnd (g j) := bnd_ctl _ _ (hI.sync j hj) hI.bnd
  cases op with
  | eval stru =>
    have ht' : (t && decide ((evalSt (k.ghost seen) (g j) stru).used ≠ .basic)) = false := ht
    simp only [Bool.and_eq_false_iff, decide_eq_false_iff_not, not_not] at ht'
    have hA := agrees_eval k seen Q hQ hin ho hcu (g j) hb p.d stru (ht'.symm.imp_right hr)
    show Ready k seen Q (evalSt (k.ghost seen) (g j) stru) (evalData k p.h stru p.d)
    rw [hp]
    obtain ⟨k1, k2, -⟩ := eval_keeps (k.ghost seen) (g j) stru hb
    have hctl := (ctl_iff _ _).1 (ctl_evalSt (k.ghost seen) stru _ _ (hI.sync j hj))
    have hu0 : (evalSt (k.ghost seen) (g 0) stru).used = .basic ∨ t = false := by
      rw [← hctl.2.2.2.2.2.2.2.1]
      exact ht'.symm
    obtain ⟨-, c2, c3⟩ := eval_core_on (k.ghost seen) _ hL.on n hn g t hI.on stru hu0
    have hcur : (evalSt (k.ghost seen) (g j) stru).cur = stru := hctl.2.2.2.2.1.trans c2
    by_cases hev : (g j).evtype = .optimized ∨ (g j).evtype = .check
    · right; right
      have hev0 : (g 0).evtype = .optimized ∨ (g 0).evtype = .check := by
        rw [← (hI.fields j hj).2.2.2.1]; exact hev
      rw [hcur]
      exact ⟨hctl.2.2.2.1.trans (c3 hev0), ⟨_, hQ.refl _, hA.lim⟩, hA.near hin⟩
    · right; left
      apply k1.last
      · rw [k2]; exact fun h => hev (Or.inl h)
      · rw [k2]; exact fun h => hev (Or.inr h)
  | setStructure stru =>
    have ht' : ¬ Primed (setStru (k.ghost seen) stru (g j)) := of_decide_eq_false ht
    exact (unprimed ht').imp_right Or.inl
  | configure f clicks r =>
    cases clicks with
    | true =>
      left
      show (g j).clock + 1 ≥ (g j).valTick
      have := hb.val
      omega
    | false => exact absurd rfl (hop f r)
  | setType ty =>
    have ht' : (t && decide ((setTypeSt (k.ghost seen) ty (g j)).evtype = (g j).evtype)) = false := ht
    show Ready k seen Q (setTypeSt (k.ghost seen) ty (g j)) (if (setTypeSt k.control ty p.h).evtype = p.h.evtype then p.d else resetValue k p.h.cfg p.h.cur p.d)
    have he : setTypeSt k.control ty p.h = erase (setTypeSt (k.ghost seen) ty (g j)) := by
      rw [hp, ← blank_ghost k seen]
      exact (erase_step (k.ghost seen) (g j) (.setType ty)).symm
    have he1 : (setTypeSt k.control ty p.h).evtype = (setTypeSt (k.ghost seen) ty (g j)).evtype := by rw [he]; rfl
    have he2 : p.h.evtype = (g j).evtype := by rw [hp]; rfl
    rw [he1, he2]
    by_cases hc : (setTypeSt (k.ghost seen) ty (g j)).evtype = (g j).evtype
    · rw [if_pos hc]
      have htf : t = false := by
        rw [decide_eq_true hc, Bool.and_true] at ht'
        exact ht'
      have hs : setTypeSt (k.ghost seen) ty (g j) = g j := by
        unfold setTypeSt at hc ⊢
        split
        · rfl
        · rename_i h1
          split
          · rfl
          · rename_i h2
            split
            · rfl
            · rename_i h3
              rw [if_neg h1, if_neg h2, if_neg h3] at hc
              exact absurd hc.symm h1
      rw [hs]
      exact hr htf
    · right; left
      unfold setTypeSt at hc ⊢
      split at hc
      · exact absurd rfl hc
      · rename_i h1
        rw [if_neg h1]
        split at hc
        · exact absurd rfl hc
        · rename_i h2
          rw [if_neg h2]
          split at hc
          · exact absurd rfl hc
          · rename_i h3
            rw [if_neg h3]

/-- A configuration call without a click keeps the jobs on abstract states: those of the new configuration. -/
theorem follows_quiet (k : Cls C S) (seen : C → ℤ → Prop) (hin : InCalc k seen) (ho : Ordered k) (n : ℕ) (hn : 1 ≤ n) (Q : C → C → Prop)
    (hQ : QuietLaw k seen Q) (t : Bool) (p : ℕ → PC C S) (h : Follows k seen Q n t p) (f : C → C) (r : Bool)
    (hq : Q (p 0).h.cfg (f (p 0).h.cfg)) :
    Follows k seen Q n t fun j => pcStep k (p j) (.configure f false r) := by
  classical
  obtain ⟨g, hI, hp, hr⟩ := h
  have hp0 := hp 0 hn
  have hc0 : (p 0).h.cfg = (g 0).cfg := by rw [hp0]; rfl
  rw [hc0] at hq
  have hcfg : ∀ j < n, (g j).cfg = (g 0).cfg := fun j hj => (hI.fields j hj).2.1
  have hcur : ∀ j < n, (g j).cur = (g 0).cur := fun j hj => (hI.fields j hj).2.2.1
  -- the new values
  let w : ℕ → ℤ → ℝ := fun j m =>
    if r && k.isEmpty (g 0).cur then 0 else if seen (f (g 0).cfg) m then (g j).value m else 0
  refine ⟨fun j => { g j with cfg := f (g j).cfg, value := w j }, ⟨?_, hI.idx, hI.ncpu, ⟨hI.bnd.pq, hI.bnd.val, hI.bnd.last⟩, ?_⟩, ?_, ?_⟩
  · intro j hj
    obtain ⟨e1, e2, e3, e4, e5, e6, e7, e8, e9⟩ := (ctl_iff _ _).1 (hI.sync j hj)
    exact (ctl_iff _ _).2 ⟨e1, e2, e3, e4, e5, by show f (g j).cfg = f (g 0).cfg; rw [e6], e7, e8, e9⟩
  · intro ht
    rcases hI.good ht with hg | hg | ⟨hg1, hg2⟩
    · exact Or.inl hg
    · exact Or.inr (Or.inl hg)
    · refine Or.inr (Or.inr ⟨hg1, ?_⟩)
      show ∑ j ∈ Finset.range n, w j = basicValue (k.ghost seen) (f (g 0).cfg) (g 0).cur
      by_cases he : (r && k.isEmpty (g 0).cur) = true
      · have he' : k.isEmpty (g 0).cur = true := by
          rw [Bool.and_eq_true] at he; exact he.2
        rw [value_empty k seen _ _ (hQ.empty _ he')]
        refine Finset.sum_eq_zero fun j _ => ?_
        funext m
        show (if _ then _ else _ : ℝ) = 0
        rw [if_pos he]
      · funext m
        rw [Finset.sum_apply]
        by_cases hm : seen (f (g 0).cfg) m
        · rw [hQ.value _ _ hq _ m hm, ← hg2, Finset.sum_apply]
          refine Finset.sum_congr rfl fun j _ => ?_
          show (if _ then _ else if _ then _ else _ : ℝ) = _
          rw [if_neg he, if_pos hm]
        · rw [value_off k seen _ _ m hm]
          refine Finset.sum_eq_zero fun j _ => ?_
          show (if _ then _ else if _ then _ else _ : ℝ) = _
          rw [if_neg he, if_neg hm]
  · intro j hj
    show (step k.control (p j).h (.configure f false)) = _
    rw [hp j hj]
    rfl
  · intro ht j hj
    have hpc : (p j).h.cfg = (g 0).cfg := by rw [hp j hj]; exact hcfg j hj
    have hpcur : (p j).h.cur = (g 0).cur := by rw [hp j hj]; exact hcur j hj
    rcases hr ht j hj with hg | hg | ⟨hg1, hg2, hg3⟩
    · exact Or.inl hg
    · exact Or.inr (Or.inl hg)
    · refine Or.inr (Or.inr ⟨hg1, ?_⟩)
      show (∃ c, Q c (f (g j).cfg) ∧ (if (r && k.isEmpty (p j).h.cur) = true then resetValue k (f (p j).h.cfg) (p j).h.cur (p j).d else (p j).d).lim = k.lim c (g j).cur) ∧
        Near k seen (if (r && k.isEmpty (p j).h.cur) = true then resetValue k (f (p j).h.cfg) (p j).h.cur (p j).d else (p j).d) (f (g j).cfg) (g j).cur (w j)
      rw [hcfg j hj, hcur j hj] at hg2 hg3 ⊢
      rw [hpc, hpcur]
      by_cases he : (r && k.isEmpty (g 0).cur) = true
      · rw [if_pos he]
        have hA := agrees_reset k seen ho (f (g 0).cfg) (g 0).cur (p j).d
        refine ⟨⟨_, hQ.refl _, rfl⟩, ?_⟩
        have hw : w j = 0 := by
          funext m
          show (if _ then _ else _ : ℝ) = 0
          rw [if_pos he]
        rw [hw]
        exact hA.near hin
      · rw [if_neg he]
        obtain ⟨cw, hcw, hlim⟩ := hg2
        have hcw' := hQ.trans _ _ _ hcw hq
        have hfit := hQ.fits _ _ hcw' (g 0).cur
        rw [← hlim] at hfit
        refine ⟨⟨cw, hcw', hlim⟩, hfit.mem, ?_, hg3.len, fun m hm => ?_⟩
        · rw [hQ.cache _ _ hq]
          exact hg3.cache
        · rw [hg3.val m (hQ.less _ _ hq m hm)]
          show _ = (if _ then _ else if _ then _ else _ : ℝ)
          rw [if_neg he, if_pos hm]

theorem follows_step (k : Cls C S) (seen : C → ℤ → Prop) (hin : InCalc k seen) (ho : Ordered k) (n : ℕ) (hn : 1 ≤ n) (hL : Lawful (k.ghost seen))
    (Q : C → C → Prop) (hQ : QuietLaw k seen Q) (t : Bool) (p : ℕ → PC C S) (h : Follows k seen Q n t p) (op : POp C S)
    (hq : ∀ f r, op = .configure f false r → Q (p 0).h.cfg (f (p 0).h.cfg)) :
    Follows k seen Q n (taint k.control (p 0).h t op.op) fun j => pcStep k (p j) op := by
  by_cases hop : ∃ f r, op = .configure f false r
  · obtain ⟨f, r, rfl⟩ := hop
    have e : taint k.control (p 0).h t (POp.configure f false r).op = t := by
      show (t && !false) = t
      simp
    rw [e]
    exact follows_quiet k seen hin ho n hn Q hQ t p h f r (hq f r rfl)
  have hop' : ∀ f r, op ≠ .configure f false r := fun f r e => hop ⟨f, r, e⟩
  obtain ⟨g, hI, hp, hr⟩ := h
  have ha : Allowed n op.op := by
    cases op with
    | configure f clicks r =>
      cases clicks with
      | true => intro hc; cases hc
      | false => exact absurd rfl (hop' f r)
    | _ => trivial
  have ht0 : taint k.control (p 0).h t op.op = taint (k.ghost seen) (g 0) t op.op := by
    rw [hp 0 hn, ← blank_ghost k seen, taint_erase]
  rw [ht0]
  have hI' := inv_step (k.ghost seen) hL n hn g t hI op.op ha
  refine ⟨_, hI', fun j hj => ?_, ?_⟩
  · rw [pcStep_h, hp j hj, erase_step, blank_ghost]
  intro ht j hj
  refine ready_step k seen Q hQ hin ho hL.custom n hn hL g t hI (p j) j hj (hp j hj) (fun h => hr h j hj) op hop' ?_
  have : taint (k.ghost seen) (g j) t op.op = taint (k.ghost seen) (g 0) t op.op := by
    have hev := (hI.fields j hj).2.2.2.1
    cases op with
    | setType ty =>
      have e : (setTypeSt (k.ghost seen) ty (g j)).evtype = (setTypeSt (k.ghost seen) ty (g 0)).evtype := by
        have := (ctl_iff _ _).1 (hI'.sync j hj)
        exact this.2.2.2.2.2.2.1
      show (t && decide _) = (t && decide _)
      rw [e, hev]
    | eval stru =>
      have e : (evalSt (k.ghost seen) (g j) stru).used = (evalSt (k.ghost seen) (g 0) stru).used := by
        have := (ctl_iff _ _).1 (hI'.sync j hj)
        exact this.2.2.2.2.2.2.2.1
      show (t && decide _) = (t && decide _)
      rw [e]
    | configure f c r => rfl
    | setStructure stru =>
      show decide _ = decide _
      exact decide_eq_decide.2 (primed_ctl _ _ (hI'.sync j hj))
  rw [this]
  exact ht

theorem follows_run (k : Cls C S) (seen : C → ℤ → Prop) (hin : InCalc k seen) (ho : Ordered k) (n : ℕ) (hn : 1 ≤ n) (hL : Lawful (k.ghost seen))
    (Q : C → C → Prop) (hQ : QuietLaw k seen Q) (ops : List (POp C S)) : ∀ (t : Bool) (p : ℕ → PC C S) (_ : Follows k seen Q n t p)
    (_ : Proper Q k (p 0) ops), Follows k seen Q n (taintAfter k.control (p 0).h t (ops.map POp.op)) fun j => pcRun k (p j) ops := by
  induction ops with
  | nil => intro t p h _; exact h
  | cons op ops ih =>
    intro t p h hp
    obtain ⟨h1, h2⟩ := proper_cons hp
    have h3 := ih _ _ (follows_step k seen hin ho n hn hL Q hQ t p h op h1) h2
    have e : taintAfter k.control (p 0).h t ((op :: ops).map POp.op) =
        taintAfter k.control (pcStep k (p 0) op).h (taint k.control (p 0).h t op.op) (ops.map POp.op) := by
      rw [pcStep_h]
      rfl
    rw [e]
    exact h3

/-- **Joint history**: the jobs of a calculator after the same history, all evaluating `stru`: the data of every job belong to the same
configuration and to `stru`, and their values add up to the value of a full evaluation in one process. -/
theorem joint_history (k : Cls C S) (seen : C → ℤ → Prop) (hin : InCalc k seen) (ho : Ordered k) (n : ℕ) (hn : 1 ≤ n)
    (hL : Lawful (k.ghost seen)) (Q : C → C → Prop) (hQ : QuietLaw k seen Q) (c : C) (e : S) (ops : List (POp C S))
    (ha : Proper Q k (pcInit k c e 0 n) ops)
    (ht : taintAfter k.control (pcInit k c e 0 n).h false (ops.map POp.op) = false) (stru : S) :
    ∃ v : ℕ → ℤ → ℝ, (∑ j ∈ Finset.range n, v j) =
        basicValue (k.ghost seen) (pcEval k (pcRun k (pcInit k c e 0 n) ops) stru).h.cfg stru ∧
      ∀ j < n, (pcEval k (pcRun k (pcInit k c e j n) ops) stru).h.cfg = (pcEval k (pcRun k (pcInit k c e 0 n) ops) stru).h.cfg ∧
        Agrees k seen (pcEval k (pcRun k (pcInit k c e j n) ops) stru).d (pcEval k (pcRun k (pcInit k c e 0 n) ops) stru).h.cfg stru (v j) := by
  let g0 : ℕ → St C S (ℤ → ℝ) := fun j => { History.init c e (j : Int) (n : Int) with evtype := .optimized }
  have hI0 : Inv (k.ghost seen) n g0 false :=
    ⟨fun _ _ => rfl, fun _ _ => rfl, rfl, ⟨Nat.le_refl _, Nat.le_refl _, fun _ _ => rfl⟩, fun _ => Or.inr (Or.inl rfl)⟩
  have hF0 : Follows k seen Q n false fun j => pcInit k c e j n := ⟨g0, hI0, fun _ _ => rfl, fun _ _ _ => Or.inr (Or.inl rfl)⟩
  have hF := follows_run k seen hin ho n hn hL Q hQ ops false _ hF0 ha
  have ht' : taintAfter k.control (pcInit k c e ((0 : ℕ) : Int) n).h false (ops.map POp.op) = false := ht
  rw [ht'] at hF
  obtain ⟨g, hI, hp, hr⟩ := hF
  obtain ⟨c1, -, -⟩ := eval_core (k.ghost seen) hL n hn g hI stru
  have hh : ∀ j < n, (pcEval k (pcRun k (pcInit k c e j n) ops) stru).h = erase (evalSt (k.ghost seen) (g j) stru) := by
    intro j hj
    show evalSt k.control (pcRun k (pcInit k c e j n) ops).h stru = _
    rw [hp j hj, erase_evalSt, blank_ghost]
  have hcfg : ∀ j < n, (pcEval k (pcRun k (pcInit k c e j n) ops) stru).h.cfg = (evalSt (k.ghost seen) (g 0) stru).cfg := by
    intro j hj
    rw [hh j hj]
    exact ((ctl_iff _ _).1 (ctl_evalSt (k.ghost seen) stru _ _ (hI.sync j hj))).2.2.2.2.2.1
  have h0 : (pcEval k (pcRun k (pcInit k c e 0 n) ops) stru).h.cfg = (evalSt (k.ghost seen) (g 0) stru).cfg := hcfg 0 hn
  refine ⟨fun j => (evalSt (k.ghost seen) (g j) stru).value, ?_, fun j hj => ⟨(hcfg j hj).trans h0.symm, ?_⟩⟩
  · rw [h0]; exact c1
  · have hb : Bnd (g j) := bnd_ctl _ _ (hI.sync j hj) hI.bnd
    have hA := agrees_eval k seen Q hQ hin ho hL.custom (g j) hb (pcRun k (pcInit k c e j n) ops).d stru (Or.inr (hr rfl j hj))
    rw [← hp j hj] at hA
    have hc : (evalSt (k.ghost seen) (g j) stru).cfg = (evalSt (k.ghost seen) (g 0) stru).cfg :=
      ((ctl_iff _ _).1 (ctl_evalSt (k.ghost seen) stru _ _ (hI.sync j hj))).2.2.2.2.2.1
    rw [h0, ← hc]
    exact hA

end Verif.PDFHist
