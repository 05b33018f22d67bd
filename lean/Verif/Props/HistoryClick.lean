import Verif.Props.History
import Mathlib.Tactic.Basic
/-
Why configuration calls must click (C13, C45, C63): an OPTIMIZED calculator that is evaluated again for an unchanged structure
keeps its value, whatever its settings are by then, unless its ticker was clicked.
-/
set_option linter.unusedSectionVars false
namespace Verif.History
open Verif.Eval Verif.Diff
variable {C S B G : Type} [AddCommGroup G]

/-- Evaluating an unchanged structure again, with no click since the last evaluation, returns the stored value. -/
theorem unchanged_keeps_value (K : Calc C S B G) (st : St C S G) (s0 stru : S) (he : st.evtype = .optimized)
    (hl : st.last = some s0) (ht : st.pqTick < st.valTick) (hf : (K.diff s0 stru).allowsFast = true)
    (hm : (K.diff s0 stru).method = .sideBySide) (hp : (K.diff s0 stru).pop0 = []) (ha : (K.diff s0 stru).add1 = [])
    (hc : (K.custom stru st.cfg).2 = false) : evalResult K st stru = some st.value := by
  have hchoice : fastChoice K st stru = some (s0, K.diff s0 stru) := by
    unfold fastChoice
    rw [hl]
    dsimp only
    rw [if_neg (Nat.not_le.2 ht), hf, hm]
    simp
  have htick : ¬ (setStru K stru st).pqTick ≥ st.valTick := by
    unfold setStru
    dsimp only
    rw [hc]
    exact Nat.not_le.2 ht
  have hopt : optFinal K stru st = fastFinal K s0 stru (K.diff s0 stru) (setUsed .optimized st) := by
    unfold optFinal
    rw [hchoice]
    dsimp only
    rw [if_neg htick]
  have hrem : ∀ st' : St C S G, remSum K st' s0 (K.diff s0 stru) = 0 := by
    intro st'
    unfold remSum removeTrace
    rw [hp]
    have e : ∀ (g : Gen B) (u : Nat → Nat → Bool) (n : Int) (c : Int) (b : Bool),
        (removeLoop g K.fullSum u n [] [] 0 0 c [] b).2 = [] := fun _ _ _ _ _ => by rw [removeLoop]
    cases hfs : K.fullSum <;> simp [removeLoop, traceSum]
  have hadd : ∀ st' : St C S G, addSum K st' s0 stru (K.diff s0 stru) = 0 := by
    intro st'
    unfold addSum addTrace
    rw [ha]
    cases hfs : K.fullSum <;> simp [addLoop, traceSum]
  have hev : evalSt K st stru = fastFinal K s0 stru (K.diff s0 stru) (setUsed .optimized st) := by
    rw [evalSt_eq, he]
    exact hopt
  unfold evalResult
  dsimp only
  rw [hev, he, if_neg (by simp)]
  congr 1
  change st.value + remSum K (setUsed .optimized st) s0 (K.diff s0 stru) +
    addSum K (setUsed .optimized st) s0 stru (K.diff s0 stru) = st.value
  rw [hrem, hadd, add_zero, add_zero]

/-- A setting changed without a click: the next evaluation of the same structure returns the value for the old setting.
The calculator is any class that supports fast updates, evaluated with the OPTIMIZED evaluator. -/
theorem stale_without_click (K : Calc C S B G) (c : C) (e stru : S) (f : C → C) (hs : K.canStash = true)
    (hf : (K.diff stru stru).allowsFast = true) (hm : (K.diff stru stru).method = .sideBySide)
    (hp : (K.diff stru stru).pop0 = []) (ha : (K.diff stru stru).add1 = [])
    (hc : ∀ c', (K.custom stru c').2 = false) :
    let st := runOps K (init c e 0 1) [.setType .optimized, .eval stru, .configure f false]
    st.cfg = f (K.custom stru c).1 ∧ evalResult K st stru = some (basicValue K (K.custom stru c).1 stru) := by
  have h1 : step K (init c e 0 1 : St C S G) (.setType .optimized) = { init c e 0 1 with evtype := .optimized } := by
    simp only [step, setTypeSt, init, hs]
    simp
  have h2 : evalSt K ({ init c e 0 1 with evtype := .optimized } : St C S G) stru =
      setLast (basicFinal K 0 1 stru { init c e 0 1 with evtype := .optimized }) := by
    rw [evalSt_eq]
    dsimp only
    unfold optFinal fastChoice
    rfl
  have hset : ∀ st : St C S G, setStru K stru st = { st with cur := stru, cfg := (K.custom stru st.cfg).1, value := 0 } := by
    intro st
    unfold setStru
    dsimp only
    rw [hc]
    rfl
  have h3 : setLast (basicFinal K 0 1 stru ({ init c e 0 1 with evtype := .optimized } : St C S G)) =
      ⟨1, 0, 1, some stru, stru, (K.custom stru c).1, bval K (K.custom stru c).1 stru 0 1, 0, 0, .optimized, .basic, 0, 1⟩ := by
    unfold basicFinal
    rw [hset]
    rfl
  intro st
  have hst : st = ⟨1, 0, 1, some stru, stru, f (K.custom stru c).1, bval K (K.custom stru c).1 stru 0 1, 0, 0, .optimized,
      .basic, 0, 1⟩ := by
    change step K (step K (step K (init c e 0 1) (.setType .optimized)) (.eval stru)) (.configure f false) = _
    rw [h1]
    change step K (evalSt K ({ init c e 0 1 with evtype := .optimized } : St C S G) stru) (.configure f false) = _
    rw [h2, h3]
    rfl
  constructor
  · rw [hst]
  · rw [unchanged_keeps_value K st stru stru (by rw [hst]) (by rw [hst]) (by rw [hst]; exact Nat.one_pos) hf hm hp ha (hc _), hst]
    congr 1

/-- A case: the cutoff of the example calculator changed behind its back. -/
example : (exCalc.diff struA struA).allowsFast = true ∧ (exCalc.diff struA struA).method = .sideBySide ∧
    (exCalc.diff struA struA).pop0 = [] ∧ (exCalc.diff struA struA).add1 = [] ∧
    basicValue exCalc 2 struA ≠ basicValue exCalc 1 struA := by decide +kernel

end Verif.History
