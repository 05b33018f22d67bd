import Verif.Props.Mask
/-! C92, masks: which pairs of sites take part in an evaluation, after any calls of the mask functions and any structures. -/
namespace Verif.Mask
open Verif.AssocMap

/-- Mask calls for which the masks do not depend on structures seen before: `maskAllPairs`, `invertMask`, `setTypeMask`, and `setPairMask` for two sites
while no type masks are set.  (`setPairMask` with an "all" index, and `setPairMask` after `setTypeMask`, keep pair masks that were made for the sites
of the structure in place, see C05.) -/
def Op.Simple (s : State) : Op → Prop
  | .maskAll _ => True
  | .invert => True
  | .pair i j _ => 0 ≤ i ∧ 0 ≤ j ∧ hasTypeMask s = false
  | .typ _ _ _ => True
  | .stru _ _ _ => False

/-- Masks after such calls on a new calculator, none of which contradicts an "all" type mask. -/
inductive Called : State → Prop
  | init : Called init
  | step {s : State} (h : Called s) (op : Op) (hs : op.Simple s) (hc : op.Consistent s) : Called (step s op)

/-- A calculator in the mask state `real` that has been through the mask calls that make `s`, and through `setStructure` and evaluations of any
structures between the calls; the hash containers may be visited in any order. -/
inductive Runs : State → State → Prop
  | init : Runs init init
  | call {real s : State} (h : Runs real s) (op : Op) (hs : op.Simple s) (hc : op.Consistent s) : Runs (step real op) (step s op)
  | stru {real s : State} (h : Runs real s) (types : List String) (sord : List (Int × Bool)) (tord : List (TKey × Bool))
      (hv : (Op.stru types sord tord).Valid real) : Runs (step real (.stru types sord tord)) s

/-- The pairs that the masks let through: by the types of the two atoms when type masks are set, else by the sites. -/
def maskOf (s : State) (i j : Nat) (a b : Option String) : Bool :=
  if hasTypeMask s then (match a, b with | some x, some y => getTypeMask s x y | _, _ => s.dflt) else getPairMask s i j

theorem Called.reachC {s : State} (h : Called s) : ReachC s := by
  induction h with
  | init => exact ReachC.init
  | step h op hs hc ih =>
    refine ReachC.step ih op ?_ hc
    cases op with
    | stru types sord tord => exact absurd hs id
    | _ => trivial

theorem Called.reach {s : State} (h : Called s) : Reach s := h.reachC.reach

theorem Runs.called {real s : State} (h : Runs real s) : Called s := by
  induction h with
  | init => exact Called.init
  | call h op hs hc ih => exact Called.step ih op hs hc
  | stru h _ _ _ _ ih => exact ih

theorem Called.runs {s : State} (h : Called s) : Runs s s := by
  induction h with
  | init => exact Runs.init
  | step h op hs hc ih => exact Runs.call ih op hs hc

theorem typ_step_site (s : State) (a b : String) (m : Bool) : (setTypeMask s a b m).site = [] := by
  unfold setTypeMask setTypeMask'
  dsimp only
  split
  · rfl
  · simp only [apply_ite State.site, State.click, ite_self]

theorem typ_step_rest (s : State) (a b : String) (m : Bool) (h : tnorm (canonAll a) (canonAll b) ≠ (allStr, allStr)) :
    (setTypeMask s a b m).dflt = s.dflt ∧ (setTypeMask s a b m).inv = s.inv ∧
    (setTypeMask s a b m).typ = put (s.typ.filter fun e => !((decide (canonAll a = allStr) || decide (canonAll b = allStr)) &&
      eraseKey (if canonAll a ≠ allStr then canonAll a else canonAll b) (tnorm (canonAll a) (canonAll b)) e.1)) (tnorm (canonAll a) (canonAll b)) m := by
  unfold setTypeMask setTypeMask'
  dsimp only
  rw [if_neg h]
  refine ⟨?_, ?_, ?_⟩
  · simp only [apply_ite State.dflt, State.click, ite_self]
  · simp only [apply_ite State.inv, State.click, ite_self]
  · simp only [apply_ite State.typ, State.click, ite_self]

theorem pair_step_typ (s : State) (i j : Int) (m : Bool) : (setPairMask s i j m).typ = [] := by
  have hr : ∀ k, (setSiteAllMask s k m).typ = [] := by
    intro k
    have := (setRow_spec { s with typ := [], site := put s.site k m } k m).1.2.2.1
    unfold setSiteAllMask
    dsimp only
    simp only [apply_ite State.typ, State.click, ite_self]
    exact this
  unfold setPairMask
  split
  · rfl
  · split
    · exact hr _
    · split
      · exact hr _
      · unfold setOnePairMask setPairMaskValue
        dsimp only
        simp only [apply_ite State.typ, State.click, ite_self]

theorem site_nil_simple (s : State) (op : Op) (hs : op.Simple s) (h : s.site = []) : (step s op).site = [] := by
  cases op with
  | maskAll m => rfl
  | invert => show List.map _ s.site = []; rw [h]; rfl
  | pair i j m =>
    obtain ⟨h1, h2, -⟩ := hs
    show (setPairMask s i j m).site = []
    unfold setPairMask
    rw [if_neg (by omega), if_neg (by omega), if_neg (by omega)]
    have hd : ∀ k, dropSite [] k m = ([], false) := fun k => rfl
    unfold setOnePairMask
    dsimp only
    rw [h, hd i]
    dsimp only
    rw [hd j]
    split <;> rfl
  | typ a b m => exact typ_step_site s a b m
  | stru t so td => exact absurd hs id

/-- "All" type masks of one calculator agree. -/
theorem allmasks_agree {s : State} (h : ReachC s) (x y : String) (v w : Bool) (hx : find s.typ (tnorm x allStr) = some v)
    (hy : find s.typ (tnorm y allStr) = some w) : v = w := by
  induction h generalizing x y v w with
  | init => simp [init] at hx
  | @step s h op hv hc ih =>
    have hnil : ∀ t : State, t.typ = [] → find t.typ (tnorm x allStr) = some v → v = w := by
      intro t ht hf; rw [ht] at hf; simp [find] at hf
    cases op with
    | maskAll m => exact hnil _ rfl hx
    | invert =>
      have e : ∀ k u, find (s.typ.map fun e => (e.1, !e.2)) k = some u → find s.typ k = some (!u) := by
        intro k u hf
        rw [find_map_val] at hf
        cases hh : find s.typ k with
        | none => rw [hh] at hf; simp at hf
        | some z => rw [hh] at hf; simp at hf; rw [← hf]
      have := ih x y _ _ (e _ _ hx) (e _ _ hy)
      simpa using this
    | pair i j m => exact hnil _ (pair_step_typ s i j m) hx
    | typ a b m =>
      by_cases hab : tnorm (canonAll a) (canonAll b) = (allStr, allStr)
      · have e : step s (.typ a b m) = maskAllPairs s m := by
          show setTypeMask s a b m = _
          unfold setTypeMask setTypeMask'
          dsimp only
          rw [if_pos hab]
        exact hnil _ (by rw [e]; rfl) hx
      · obtain ⟨-, -, e⟩ := typ_step_rest s a b m hab
        have hf : ∀ z u, find (step s (.typ a b m)).typ (tnorm z allStr) = some u →
            (tnorm (canonAll a) (canonAll b) = tnorm z allStr ∧ u = m) ∨
              (tnorm (canonAll a) (canonAll b) ≠ tnorm z allStr ∧ find s.typ (tnorm z allStr) = some u) := by
          intro z u hz
          have hz' : find (setTypeMask s a b m).typ (tnorm z allStr) = some u := hz
          rw [e, find_put] at hz'
          by_cases hk : tnorm z allStr = tnorm (canonAll a) (canonAll b)
          · rw [if_pos hk] at hz'
            left
            exact ⟨hk.symm, (Option.some.inj hz').symm⟩
          · rw [if_neg hk] at hz'
            right
            refine ⟨fun h => hk h.symm, ?_⟩
            rw [find_filter s.typ (fun k => !((decide (canonAll a = allStr) || decide (canonAll b = allStr)) &&
              eraseKey (if canonAll a ≠ allStr then canonAll a else canonAll b) (tnorm (canonAll a) (canonAll b)) k))] at hz'
            have hite : ∀ (c : Prop) [Decidable c] (o : Option Bool), (if c then o else none) = some u → o = some u := by
              intro c _ o h
              split at h
              · exact h
              · cases h
            exact hite _ _ hz'
        have hcon : ∀ z u, tnorm (canonAll a) (canonAll b) = tnorm z allStr → ∀ z', tnorm (canonAll a) (canonAll b) ≠ tnorm z' allStr →
            find s.typ (tnorm z' allStr) = some u → u = m := by
          intro z u hz z' hz' hu
          have hne : z' ≠ z := fun h => hz' (by rw [h]; exact hz)
          have hor : canonAll a = allStr ∧ canonAll b = z ∨ canonAll b = allStr ∧ canonAll a = z := by
            rw [tnorm_eq_iff] at hz
            rcases hz with ⟨h1, h2⟩ | ⟨h1, h2⟩
            · exact Or.inr ⟨h2, h1⟩
            · exact Or.inl ⟨h1, h2⟩
          have := hc z hor z' hne
          exact eq_of_ne_not (by rw [← hu]; exact this)
        rcases hf x v hx with ⟨h1, rfl⟩ | ⟨h1, h2⟩
        · rcases hf y w hy with ⟨-, rfl⟩ | ⟨h3, h4⟩
          · rfl
          · exact (hcon x w h1 y h3 h4).symm
        · rcases hf y w hy with ⟨h3, rfl⟩ | ⟨h3, h4⟩
          · exact hcon y v h3 x h1 h2
          · exact ih x y v w h2 h4
    | stru t so td =>
      have e : (step s (.stru t so td)).typ = s.typ := (sameRest_update so td { s with types := t }).2.2.1
      rw [e] at hx hy
      exact ih x y v w hx hy

theorem no_conflict {s : State} (h : ReachC s) (x y : String) : ¬ TypeConflict s x y := by
  rintro ⟨-, v, h1, h2⟩
  have := allmasks_agree h x y v (!v) h1 h2
  cases v <;> cases this

/-- The masks are symmetric. -/
theorem maskOf_comm {s : State} (h : Called s) (i j : Nat) (a b : Option String) : maskOf s i j a b = maskOf s j i b a := by
  unfold maskOf
  split
  · cases a <;> cases b <;> first | rfl | exact getTypeMask_symmetric s _ _ (no_conflict h.reachC _ _)
  · exact getPairMask_comm s i j

/-- They do not depend on the sites when `hasPairMask()` is false. -/
theorem maskOf_types {s : State} (h : hasPairMask s = false) (i j i' j' : Nat) (a b : Option String) : maskOf s i j a b = maskOf s i' j' a b := by
  unfold maskOf
  cases ht : hasTypeMask s with
  | true => rfl
  | false =>
    have hm : hasMask s = false := by simpa [hasPairMask, ht] using h
    simp only [Bool.false_eq_true, if_false]
    rw [mask_hasMask_false s hm, mask_hasMask_false s hm]

/-- A mask call that does not click changes nothing. -/
theorem maskOf_quiet {s : State} (h : ReachC s) (op : Op) (hs : op.Simple s) (hc : op.Consistent s) (hclk : (step s op).clicks = s.clicks) :
    maskOf (step s op) = maskOf s := by
  have hop : ∀ types sord tord, op ≠ .stru types sord tord := by
    rintro t so td rfl
    exact hs
  obtain ⟨h1, h2, h3⟩ := mask_change_clicks_partial s h op hc hop hclk
  have hd : hasTypeMask s = true → (step s op).dflt = s.dflt := by
    intro ht
    cases op with
    | maskAll m =>
      have h3' : hasTypeMask (maskAllPairs s m) = hasTypeMask s := h3
      rw [ht] at h3'
      exact absurd h3' (by simp [hasTypeMask, maskAllPairs])
    | invert => exact absurd hclk (by simp [step, invertMask, State.click])
    | pair i j m => rw [hs.2.2] at ht; cases ht
    | typ a b m =>
      by_cases hab : tnorm (canonAll a) (canonAll b) = (allStr, allStr)
      · have e : step s (.typ a b m) = maskAllPairs s m := by
          show setTypeMask s a b m = _
          unfold setTypeMask setTypeMask'
          dsimp only
          rw [if_pos hab]
        rw [e, ht] at h3
        exact absurd h3 (by simp [hasTypeMask, maskAllPairs])
      · exact (typ_step_rest s a b m hab).1
    | stru t so td => exact absurd hs id
  funext i j a b
  unfold maskOf
  rw [h3, h1]
  by_cases ht : hasTypeMask s = true
  · rw [if_pos ht, if_pos ht, hd ht]
    cases a <;> cases b <;> first | rfl | exact h2 _ _
  · rw [if_neg ht, if_neg ht]

/-! ### The calculator -/

/-- The state of the calculator and that of the calls alone. -/
theorem runs_rel {real s : State} (h : Runs real s) :
    Reach real ∧ real.dflt = s.dflt ∧ real.typ = s.typ ∧ real.site = [] ∧ s.site = [] ∧ (s.typ = [] → ∀ p, p ∈ real.inv ↔ p ∈ s.inv) := by
  induction h with
  | init => exact ⟨Reach.init, rfl, rfl, rfl, rfl, fun _ _ => Iff.rfl⟩
  | @call real s h op hs hc ih =>
    obtain ⟨h0, h1, h2, h3, h4, h5⟩ := ih
    have hs' : op.Simple real := by
      cases op with
      | pair i j m => exact ⟨hs.1, hs.2.1, by unfold hasTypeMask; rw [h2]; exact hs.2.2⟩
      | _ => exact hs
    refine ⟨Reach.step h0 op ?_, ?_⟩
    · cases op with
      | stru t so td => exact absurd hs id
      | _ => trivial
    have hsr := site_nil_simple real op hs' h3
    have hss := site_nil_simple s op hs h4
    cases op with
    | maskAll m => exact ⟨rfl, rfl, rfl, rfl, fun _ _ => Iff.rfl⟩
    | invert =>
      refine ⟨?_, ?_, hsr, hss, fun ht p => ?_⟩
      · show (!real.dflt) = !s.dflt; rw [h1]
      · show List.map _ real.typ = List.map _ s.typ; rw [h2]
      · have : s.typ = [] := List.map_eq_nil_iff.1 ht
        exact h5 this p
    | pair i j m =>
      obtain ⟨hi, hj, ht⟩ := hs
      have ht' : s.typ = [] := by simpa [hasTypeMask] using ht
      have e : ∀ t : State, t.site = [] → (setPairMask t i j m).dflt = t.dflt ∧ (setPairMask t i j m).inv =
          (if m == t.dflt then setErase t.inv (norm i j) else setInsert t.inv (norm i j)).1 := by
        intro t ht
        unfold setPairMask
        rw [if_neg (by omega), if_neg (by omega), if_neg (by omega)]
        unfold setOnePairMask setPairMaskValue
        dsimp only
        constructor
        · simp only [apply_ite State.dflt, State.click, ite_self]
        · simp only [apply_ite State.inv, State.click, ite_self]
      obtain ⟨e1, e2⟩ := e real h3
      obtain ⟨e3, e4⟩ := e s h4
      refine ⟨e1.trans (h1.trans e3.symm), ?_, hsr, hss, fun _ p => ?_⟩
      · show (setPairMask real i j m).typ = (setPairMask s i j m).typ
        rw [pair_step_typ, pair_step_typ]
      · show p ∈ (setPairMask real i j m).inv ↔ p ∈ (setPairMask s i j m).inv
        rw [e2, e4, h1]
        split
        · rw [mem_setErase, mem_setErase, h5 ht' p]
        · rw [mem_setInsert, mem_setInsert, h5 ht' p]
    | typ a b m =>
      by_cases hab : tnorm (canonAll a) (canonAll b) = (allStr, allStr)
      · have e : ∀ t : State, step t (.typ a b m) = maskAllPairs t m := by
          intro t
          show setTypeMask t a b m = _
          unfold setTypeMask setTypeMask'
          dsimp only
          rw [if_pos hab]
        rw [e, e]
        exact ⟨rfl, rfl, rfl, rfl, fun _ _ => Iff.rfl⟩
      · obtain ⟨e1, -, e3⟩ := typ_step_rest real a b m hab
        obtain ⟨e4, -, e6⟩ := typ_step_rest s a b m hab
        refine ⟨e1.trans (h1.trans e4.symm), ?_, hsr, hss, fun ht => ?_⟩
        · show (setTypeMask real a b m).typ = (setTypeMask s a b m).typ
          rw [e3, e6, h2]
        · have ht' : (setTypeMask s a b m).typ = [] := ht
          rw [e6] at ht'
          simp [put] at ht'
    | stru t so td => exact absurd hs id
  | @stru real s h types sord tord hv ih =>
    obtain ⟨h0, h1, h2, h3, h4, h5⟩ := ih
    have e := sameRest_update sord tord { real with types := types }
    refine ⟨Reach.step h0 _ hv, e.1.trans h1, e.2.2.1.trans h2, e.2.1.trans h3, h4, fun ht p => ?_⟩
    have hsord : sord = [] := by
      have := hv.1
      rw [h3] at this
      exact List.perm_nil.1 this
    have : (step real (.stru types sord tord)).inv = real.inv := by
      show (setStructure sord tord real types).inv = _
      unfold setStructure updateMaskData
      have ht' : real.typ.isEmpty = true := by rw [h2, ht]; rfl
      rw [if_pos ht', hsord]
      rfl
    rw [this]
    exact h5 ht p

theorem simple_same {real s : State} (h : real.typ = s.typ) (op : Op) : op.Simple s ↔ op.Simple real := by
  cases op with
  | pair i j m =>
    show _ ∧ _ ∧ hasTypeMask s = false ↔ _ ∧ _ ∧ hasTypeMask real = false
    unfold hasTypeMask
    rw [h]
  | _ => exact Iff.rfl

theorem consistent_same {real s : State} (h : real.typ = s.typ) (hs : real.site = s.site) (op : Op) : op.Consistent s ↔ op.Consistent real := by
  cases op with
  | typ a b m =>
    unfold Op.Consistent
    rw [h]
  | pair i j m =>
    unfold Op.Consistent
    rw [hs]
  | _ => exact Iff.rfl

theorem Runs.reachC {real s : State} (h : Runs real s) : ReachC real := by
  induction h with
  | init => exact ReachC.init
  | @call real s h op hs hc ih =>
    refine ReachC.step ih op ?_ ((consistent_same (runs_rel h).2.2.1 ((runs_rel h).2.2.2.1.trans (runs_rel h).2.2.2.2.1.symm) op).1 hc)
    cases op with
    | stru t so td => exact absurd hs id
    | _ => trivial
  | stru h types sord tord hv ih => exact ReachC.step ih _ hv trivial

/-- The structures seen do not matter. -/
theorem runs_maskOf {real s : State} (h : Runs real s) : maskOf real = maskOf s := by
  obtain ⟨-, h1, h2, -, -, h5⟩ := runs_rel h
  have h6 : hasTypeMask real = hasTypeMask s := by unfold hasTypeMask; rw [h2]
  funext i j a b
  unfold maskOf
  rw [h6]
  by_cases ht : hasTypeMask s = true
  · rw [if_pos ht, if_pos ht]
    cases a <;> cases b <;> first | exact h1 | (show getTypeMask _ _ _ = _; unfold getTypeMask; rw [h1, h2])
  · rw [if_neg ht, if_neg ht]
    have hte : s.typ = [] := by simpa [hasTypeMask] using ht
    unfold getPairMask
    rw [h1]
    simp only [h5 hte]

/-- A mask call on the calculator that does not click leaves the masks as they were. -/
theorem mask_call_quiet {real s : State} (h : Runs real s) (op : Op) (hs : op.Simple s) (hc : op.Consistent s)
    (hclk : (step real op).clicks = real.clicks) : maskOf (step s op) = maskOf s := by
  have ht := (runs_rel h).2.2.1
  rw [← runs_maskOf (Runs.call h op hs hc), ← runs_maskOf h]
  exact maskOf_quiet h.reachC op ((simple_same ht op).1 hs) ((consistent_same ht ((runs_rel h).2.2.2.1.trans (runs_rel h).2.2.2.2.1.symm) op).1 hc) hclk

/-- `hasPairMask()` does not depend on the structures seen. -/
theorem runs_hasPairMask {real s : State} (h : Runs real s) : hasPairMask real = hasPairMask s := by
  obtain ⟨-, h1, h2, h3, h4, h5⟩ := runs_rel h
  have h6 : hasTypeMask real = hasTypeMask s := by unfold hasTypeMask; rw [h2]
  unfold hasPairMask
  rw [h6]
  cases ht : hasTypeMask s with
  | true => simp
  | false =>
    have hte : s.typ = [] := by simpa [hasTypeMask] using ht
    have hi : real.inv.isEmpty = s.inv.isEmpty := by
      rw [Bool.eq_iff_iff, List.isEmpty_iff, List.isEmpty_iff, List.eq_nil_iff_forall_not_mem, List.eq_nil_iff_forall_not_mem]
      simp only [h5 hte]
    unfold hasMask
    rw [h1, h2, h3, h4, hi]

/-- Pairs with a site beyond the structure keep the default mask. -/
theorem outside_default (L : List TKey) : ∀ s : State, ∀ i j : Nat, (s.types[i]? = none ∨ s.types[j]? = none) →
    getPairMask (L.foldl applyTypePair s) i j = getPairMask s i j := by
  induction L with
  | nil => intro s i j _; rfl
  | cons tp L ih =>
    intro s i j hij
    rw [List.foldl_cons, ih _ i j (by rw [(applyTypePair_spec s tp).1.2.2.2.1]; exact hij)]
    have := (fold_setValue (fun p : Nat × Nat => ((p.1 : Int), (p.2 : Int)))
      ((find s.typ tp).getD s.dflt) (typePairs s.types tp) s).2 i j
    unfold applyTypePair
    rw [this, if_neg]
    have hmem : ∀ a b : Nat, (a, b) ∈ typePairs s.types tp → s.types[a]? ≠ none ∧ s.types[b]? ≠ none := by
      intro a b hab
      have hI : ∀ (k : Nat) (t : String), k ∈ siteIndices s.types t → s.types[k]? ≠ none := by
        intro k t hk
        obtain ⟨x, hx, -⟩ := (mem_siteIndices _ _ _).1 hk
        rw [hx]; simp
      unfold typePairs at hab
      dsimp only at hab
      split at hab
      · have := (mem_halfPairs _ a b).1 (Or.inl hab)
        exact ⟨hI _ _ this.1, hI _ _ this.2⟩
      · simp only [List.mem_flatMap, List.mem_map, Prod.mk.injEq] at hab
        obtain ⟨a', ha, b', hb, rfl, rfl⟩ := hab
        exact ⟨hI _ _ ha, hI _ _ hb⟩
    rintro ⟨⟨a, b⟩, hab, hp⟩
    have h2 := hmem a b hab
    simp only [norm_eq_iff] at hp
    rcases hp with ⟨h3, h4⟩ | ⟨h3, h4⟩ <;> norm_cast at h3 h4 <;> subst h3 h4 <;> rcases hij with h | h
    · exact h2.1 h
    · exact h2.2 h
    · exact h2.2 h
    · exact h2.1 h

/-- **C92**, masks: in an evaluation the pair of sites `i`, `j` is let through as the calls say, whatever structures were set before. -/
theorem mask_in_evaluation {real s : State} (h : Runs real s) (types : List String) (hall : allStr ∉ types) (sord : List (Int × Bool))
    (tord : List (TKey × Bool)) (hv : (Op.stru types sord tord).Valid real) (i j : Nat) :
    getPairMask (setStructure sord tord real types) i j = maskOf s i j types[i]? types[j]? := by
  obtain ⟨h0, h1, h2, h3, h4, h5⟩ := runs_rel h
  unfold maskOf
  by_cases ht : hasTypeMask s = true
  · rw [if_pos ht]
    have htr : hasTypeMask real = true := by unfold hasTypeMask at ht ⊢; rw [h2]; exact ht
    have hne : ¬ (real.typ.isEmpty = true) := by simpa [hasTypeMask] using htr
    have hset : setStructure sord tord real types = (orderedPairs tord).foldl applyTypePair { real with types := types, inv := [] } := by
      simp only [setStructure, updateMaskData]
      rw [if_neg hne]
    have hout : (types[i]? = none ∨ types[j]? = none) → getPairMask (setStructure sord tord real types) i j = s.dflt := by
      intro hij
      rw [hset, outside_default _ { real with types := types, inv := [] } i j hij]
      unfold getPairMask
      simp [h1]
    cases hx : types[i]? with
    | none => exact hout (Or.inl hx)
    | some x =>
      cases hy : types[j]? with
      | none => exact hout (Or.inr hy)
      | some y =>
        have hget : getTypeMask real x y = getTypeMask s x y := by unfold getTypeMask; rw [h1, h2]
        have hcon : TypeConflict real x y → TypeConflict s x y := by
          rintro ⟨h6, v, h7, h8⟩
          exact ⟨by rw [← h2]; exact h6, v, by rw [← h2]; exact h7, by rw [← h2]; exact h8⟩
        exact ((mask_types_partial real h0 htr types hall sord tord hv.2 i j x y hx hy).1
          fun hh => no_conflict h.called.reachC x y (hcon hh)).trans hget
  · rw [if_neg ht]
    have hte : s.typ = [] := by simpa [hasTypeMask] using ht
    have hsord : sord = [] := by
      have := hv.1
      rw [h3] at this
      exact List.perm_nil.1 this
    have e : setStructure sord tord real types = { real with types := types } := by
      unfold setStructure updateMaskData
      have ht' : real.typ.isEmpty = true := by rw [h2, hte]; rfl
      rw [if_pos ht', hsord]
      rfl
    rw [e]
    unfold getPairMask
    dsimp only
    rw [h1]
    simp only [h5 hte]

/-! ### Later structures -/

theorem rows_spec (v : Bool) (L : List (Int × Bool)) : ∀ u : State, (∀ e ∈ L, e.2 = v) → ∀ a b : Int,
    getPairMask (L.foldl (fun s e => setRow s e.1 e.2) u) a b =
      if ∃ e ∈ L, (a = e.1 ∧ 0 ≤ b ∧ b < u.types.length) ∨ (b = e.1 ∧ 0 ≤ a ∧ a < u.types.length) then v else getPairMask u a b := by
  induction L with
  | nil => intro u _ a b; simp
  | cons e L ih =>
    intro u hL a b
    have hs := setRow_spec u e.1 e.2
    rw [List.foldl_cons, ih _ (fun e he => hL e (List.mem_cons_of_mem _ he)) a b, hs.1.2.2.2.1, hs.2, hL e (by simp)]
    simp only [List.exists_mem_cons_iff]
    by_cases h1 : (a = e.1 ∧ 0 ≤ b ∧ b < (u.types.length : Int)) ∨ (b = e.1 ∧ 0 ≤ a ∧ a < (u.types.length : Int))
    · rw [if_pos h1, if_pos (Or.inl h1), ite_self]
    · rw [if_neg h1]
      by_cases h2 : ∃ x ∈ L, (a = x.1 ∧ 0 ≤ b ∧ b < (u.types.length : Int)) ∨ (b = x.1 ∧ 0 ≤ a ∧ a < (u.types.length : Int))
      · rw [if_pos h2, if_pos (Or.inr h2)]
      · rw [if_neg h2, if_neg (not_or.2 ⟨h1, h2⟩)]

/-- Without type masks: in an evaluation the mask for all pairs of a site applies to the pairs with the sites of the structure, and the other pairs
are as they were. -/
theorem siteAll_in_evaluation {s : State} (h : ReachC s) (ht : hasTypeMask s = false) (types : List String) (sord : List (Int × Bool))
    (tord : List (TKey × Bool)) (hv : (Op.stru types sord tord).Valid s) (i j : Nat) :
    (∀ v, (find s.site i = some v ∧ j < types.length) ∨ (find s.site j = some v ∧ i < types.length) →
      getPairMask (setStructure sord tord s types) i j = v) ∧
    ((¬ ∃ v, (find s.site i = some v ∧ j < types.length) ∨ (find s.site j = some v ∧ i < types.length)) →
      getPairMask (setStructure sord tord s types) i j = getPairMask s i j) := by
  have wf := reach_wf h.reach
  have hK := (reachC_inv h).1
  have hmem : ∀ k w, (k, w) ∈ sord ↔ find s.site k = some w := fun k w =>
    ⟨fun hm => (find_eq_some_iff wf.snodup).2 (hv.1.mem_iff.1 hm), fun hf => hv.1.mem_iff.2 (mem_of_find hf)⟩
  have hset : setStructure sord tord s types = sord.foldl (fun s e => setRow s e.1 e.2) { s with types := types } := by
    unfold setStructure updateMaskData
    have ht' : s.typ.isEmpty = true := by simpa [hasTypeMask] using ht
    rw [if_pos ht']
  constructor
  · intro v hor
    have hall : ∀ e ∈ sord, e.2 = v := by
      intro e he
      have he' := (hmem e.1 e.2).1 he
      rcases hor with ⟨h1, -⟩ | ⟨h1, -⟩ <;> exact hK _ _ _ _ he' h1
    rw [hset, rows_spec v sord _ hall, if_pos]
    rcases hor with ⟨h1, h2⟩ | ⟨h1, h2⟩
    · exact ⟨(i, v), (hmem _ _).2 h1, Or.inl ⟨rfl, by omega, by dsimp only; omega⟩⟩
    · exact ⟨(j, v), (hmem _ _).2 h1, Or.inr ⟨rfl, by omega, by dsimp only; omega⟩⟩
  · intro hno
    obtain ⟨v, hall⟩ : ∃ v, ∀ e ∈ sord, e.2 = v := by
      cases hs : sord with
      | nil => exact ⟨true, by simp⟩
      | cons e L =>
        refine ⟨e.2, fun e' he' => ?_⟩
        rw [← hs] at he'
        exact hK _ _ _ _ ((hmem _ _).1 he') ((hmem e.1 e.2).1 (by rw [hs]; simp))
    rw [hset, rows_spec v sord _ hall, if_neg]
    · rfl
    · rintro ⟨e, he, h1 | h1⟩
      · exact hno ⟨e.2, Or.inl ⟨by rw [h1.1]; exact (hmem _ _).1 he, by have := h1.2.2; dsimp only at this; omega⟩⟩
      · exact hno ⟨e.2, Or.inr ⟨by rw [h1.1]; exact (hmem _ _).1 he, by have := h1.2.2; dsimp only at this; omega⟩⟩

/-- What a call that does not click leaves as it was. -/
theorem quiet_data {s : State} (h : ReachC s) (op : Op) (hop : ∀ types sord tord, op ≠ .stru types sord tord)
    (hclk : (step s op).clicks = s.clicks) : ∀ k, find (step s op).site k = find s.site k := by
  have wf := reach_wf h.reach
  have hall : ∀ m, (maskAllPairs s m).clicks = s.clicks → maskAllPairs s m = s := by
    intro m hm
    obtain ⟨d, i, st, t, ty, c⟩ := s
    simp only [maskAllPairs, State.click] at hm ⊢
    split at hm
    · simp at hm
    · rename_i hc
      simp at hc
      obtain ⟨⟨⟨rfl, rfl⟩, rfl⟩, rfl⟩ := hc
      simp
  have hsa : ∀ k m, (setSiteAllMask s k m).clicks = s.clicks → ∀ l, find (setSiteAllMask s k m).site l = find s.site l := by
    intro k m hm l
    have hrow := setRow_spec { s with typ := [], site := put s.site k m } k m
    have hcl : (setRow { s with typ := [], site := put s.site k m } k m).clicks = s.clicks := hrow.1.2.2.2.2
    unfold setSiteAllMask at hm ⊢
    dsimp only at hm ⊢
    split at hm
    · simp [State.click, hcl] at hm
    · rename_i hmod
      rw [if_neg hmod, hrow.1.2.1]
      simp only [Bool.or_eq_true, not_or, bne_iff_ne, ne_eq, Decidable.not_not] at hmod
      show find (put s.site k m) l = _
      rw [find_put]
      split
      · rename_i hl
        rw [hl, hmod.1]
      · rfl
  intro k
  cases op with
  | maskAll m => rw [show step s (.maskAll m) = s from hall m hclk]
  | invert => exact absurd hclk (by simp [step, invertMask, State.click])
  | pair i j m =>
    change (setPairMask s i j m).clicks = s.clicks at hclk
    show find (setPairMask s i j m).site k = _
    unfold setPairMask at hclk ⊢
    split at hclk
    · rename_i h1; rw [if_pos h1, hall m hclk]
    · rename_i h1
      rw [if_neg h1]
      split at hclk
      · rename_i h2; rw [if_pos h2]; exact hsa _ _ hclk k
      · rename_i h2
        rw [if_neg h2]
        split at hclk
        · rename_i h3; rw [if_pos h3]; exact hsa _ _ hclk k
        · rename_i h3
          rw [if_neg h3]
          have hd : ∀ (st : List (Int × Bool)) k, (dropSite st k m).2 = false → (dropSite st k m).1 = st := by
            intro st k hh
            unfold dropSite at hh ⊢
            split
            · rename_i v hv
              rw [hv] at hh
              dsimp only at hh
              split at hh
              · cases hh
              · rename_i hne; rw [if_neg hne]
            · rfl
          unfold setOnePairMask at hclk ⊢
          dsimp only at hclk ⊢
          split at hclk
          · simp [State.click, setPairMaskValue] at hclk
          · rename_i hmod
            rw [if_neg hmod]
            simp only [Bool.or_eq_true, not_or, Bool.not_eq_true] at hmod
            show find (dropSite (dropSite s.site i m).1 j m).1 k = _
            rw [hd _ _ hmod.1.2, hd _ _ hmod.1.1.2]
  | typ a b m =>
    by_cases hab : tnorm (canonAll a) (canonAll b) = (allStr, allStr)
    · have e : step s (.typ a b m) = maskAllPairs s m := by
        show setTypeMask s a b m = _
        unfold setTypeMask setTypeMask'
        dsimp only
        rw [if_pos hab]
      rw [e] at hclk ⊢
      rw [hall m hclk]
    · have hne : s.typ ≠ [] := by
        intro hn
        change (setTypeMask s a b m).clicks = s.clicks at hclk
        unfold setTypeMask setTypeMask' at hclk
        dsimp only at hclk
        rw [if_neg hab, hn, if_pos (by simp)] at hclk
        simp [State.click] at hclk
      show find (setTypeMask s a b m).site k = _
      rw [typ_step_site, wf.excl.resolve_right hne]
  | stru t so td => exact absurd rfl (hop t so td)

/-- A mask call that does not click makes no difference for any structure evaluated later. -/
theorem quiet_later {s : State} (h : ReachC s) (op : Op) (hc : op.Consistent s) (hop : ∀ types sord tord, op ≠ .stru types sord tord)
    (hclk : (step s op).clicks = s.clicks) (types : List String) (hall : allStr ∉ types) (sord sord' : List (Int × Bool))
    (tord tord' : List (TKey × Bool)) (hv : (Op.stru types sord tord).Valid s) (hv' : (Op.stru types sord' tord').Valid (step s op)) (i j : Nat)
    (hi : i < types.length) (hj : j < types.length) :
    getPairMask (setStructure sord' tord' (step s op) types) i j = getPairMask (setStructure sord tord s types) i j := by
  obtain ⟨h1, h2, h3⟩ := mask_change_clicks_partial s h op hc hop hclk
  have hsite := quiet_data h op hop hclk
  have h' : ReachC (step s op) := by
    refine ReachC.step h op ?_ hc
    cases op with
    | stru t so td => exact absurd rfl (hop t so td)
    | _ => trivial
  cases ht : hasTypeMask s with
  | true =>
    rw [ht] at h3
    have hx := List.getElem?_eq_getElem hi
    have hy := List.getElem?_eq_getElem hj
    rw [(mask_types_partial s h.reach ht types hall sord tord hv.2 i j _ _ hx hy).1 (no_conflict h _ _),
      (mask_types_partial _ h'.reach h3 types hall sord' tord' hv'.2 i j _ _ hx hy).1 (no_conflict h' _ _), h2]
  | false =>
    rw [ht] at h3
    obtain ⟨a1, a2⟩ := siteAll_in_evaluation h ht types sord tord hv i j
    obtain ⟨b1, b2⟩ := siteAll_in_evaluation h' h3 types sord' tord' hv' i j
    rw [hsite, hsite] at b1 b2
    by_cases hex : ∃ v, (find s.site i = some v ∧ j < types.length) ∨ (find s.site j = some v ∧ i < types.length)
    · obtain ⟨v, hv⟩ := hex
      rw [a1 v hv, b1 v hv]
    · rw [a2 hex, b2 hex, h1]

/-! ### Concrete cases -/

/-- A mask for all pairs of site 0, set before there is a structure. -/
example : ReachC (setPairMask init 0 (-1) false) ∧ hasTypeMask (setPairMask init 0 (-1) false) = false ∧
    find (setPairMask init 0 (-1) false).site 0 = some false ∧ (step (setPairMask init 0 (-1) false) (.pair 0 1 false)).clicks = 2 ∧
    (setPairMask init 0 (-1) false).clicks = 1 ∧ (step (setPairMask init 0 (-1) false) (.pair (-1) 0 false)).clicks = 1 := by
  refine ⟨ReachC.step ReachC.init (.pair 0 (-1) false) trivial ?_, by decide +kernel⟩
  intro k hk _ l _
  simp [init]


/-- Oxygen pairs only, and no structure with two sites seen before matters. -/
example : ∃ real, Runs real (setTypeMask (maskAllPairs init false) "O" "O" true) ∧ real.inv ≠ [] ∧
    ∀ types : List String, allStr ∉ types → ∀ i j : Nat, types[i]? = some "O" → types[j]? = some "O" →
      getPairMask (setStructure [] [(("O", "O"), true)] real types) i j = true := by
  have h0 : Runs _ _ := Runs.call (Runs.call Runs.init (.maskAll false) trivial trivial) (.typ "O" "O" true) trivial
    (by rintro z (⟨h, -⟩ | ⟨h, -⟩) <;> exact absurd h (by decide +kernel))
  have h1 := Runs.stru h0 ["O", "C"] [] [(("O", "O"), true)] ⟨List.Perm.refl _, List.Perm.refl _⟩
  refine ⟨_, h1, by decide +kernel, fun types hall i j hi hj => ?_⟩
  rw [mask_in_evaluation h1 types hall [] [(("O", "O"), true)] ⟨List.Perm.refl _, List.Perm.refl _⟩, hi, hj]
  have e : hasTypeMask (step (step init (.maskAll false)) (.typ "O" "O" true)) = true := by decide +kernel
  have e' : getTypeMask (step (step init (.maskAll false)) (.typ "O" "O" true)) "O" "O" = true := by decide +kernel
  unfold maskOf
  rw [if_pos e]
  exact e'

/-- A mask by sites that is in the way of no structure. -/
example : Called (setPairMask init 0 1 false) ∧ maskOf (setPairMask init 0 1 false) 1 0 none none = false ∧
    maskOf (setPairMask init 0 1 false) 1 1 none none = true ∧ hasPairMask (setPairMask init 0 1 false) = true := by
  refine ⟨Called.step Called.init (.pair 0 1 false) ⟨by decide, by decide, rfl⟩ ?_, ?_⟩
  · rintro k hk (⟨h, -⟩ | ⟨h, -⟩) <;> exact absurd h (by decide)
  · decide +kernel

end Verif.Mask
