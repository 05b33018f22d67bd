/-
Model of the pair-quantity evaluators (src/diffpy/srreal/PQEvaluator.cpp).

An evaluation is modelled by its *trace*: the list of `addPairContribution(*bnds, scale)` calls
it makes.  A bond generator is any function from anchor and selected sites to the list of
(second site, bond) it iterates over (`selectAnchorSite`, `selectSites`, `rewind`, `next`,
`finished`); its contract is stated in `GenSpec` and proved for the base generator in
`Props/BondGen.lean`.
-/
namespace Verif.Eval

variable {B : Type}

/-- One call `pq.addPairContribution(bnds, scale)` with `bnds->site0() = i0`,
`bnds->site1() = i1` (PQEvaluator.cpp:124, :243, :293). -/
structure Contrib (B : Type) where
  i0 : Nat
  i1 : Nat
  scale : Int
  bond : B
deriving Repr, DecidableEq

/-- A configured bond generator: anchor → selected sites → visited bonds. -/
abbrev Gen (B : Type) := Nat → List Nat → List (Nat × B)

/-- `n % mncpu` is non-zero, i.e. this CPU skips (PQEvaluator.cpp:114, :120, :226, :276);
C++ `%` truncates. -/
def skips (n ncpu : Int) : Bool := decide (n.tmod ncpu ≠ 0)

/-- `summationscale` (PQEvaluator.cpp:123, :242, :292): `s` is 1 for adding, -1 for removing. -/
def sumScale (s : Int) (full : Bool) (i0 i1 : Nat) : Int :=
  if full || decide (i0 = i1) then s else 2 * s

/-- Inner loop over bonds of one anchor (PQEvaluator.cpp:118-125, also :238-244 and :288-294 with
`chop = false`).  `use i0 i1` is `!(hasmask && !pq.getPairMask(i0, i1))`.  Returns the loop
counter and the calls made. -/
def innerLoop (s : Int) (full : Bool) (use : Nat → Nat → Bool) (chop : Bool) (ncpu : Int)
    (i0 : Nat) : List (Nat × B) → Int → Int × List (Contrib B)
  | [], n => (n, [])
  | (i1, b) :: rest, n =>
    if chop && skips n ncpu then innerLoop s full use chop ncpu i0 rest (n + 1)
    else
      let r := innerLoop s full use chop ncpu i0 rest (if chop then n + 1 else n)
      if use i0 i1 then (r.1, ⟨i0, i1, sumScale s full i0 i1, b⟩ :: r.2) else r

/-- Outer loop of the BASIC evaluator (PQEvaluator.cpp:112-126) over the anchors still to do. -/
def basicLoop (gen : Gen B) (full : Bool) (use : Nat → Nat → Bool) (cnt : Nat)
    (chopOuter chopInner : Bool) (ncpu : Int) : List Nat → Int → List (Contrib B)
  | [], _ => []
  | i0 :: rest, n =>
    if chopOuter && skips n ncpu then
      basicLoop gen full use cnt chopOuter chopInner ncpu rest (n + 1)
    else
      let sel := List.range (if full then cnt else i0 + 1)
      let r := innerLoop 1 full use chopInner ncpu i0 (gen i0 sel) (if chopOuter then n + 1 else n)
      r.2 ++ basicLoop gen full use cnt chopOuter chopInner ncpu rest r.1

/-- `chop_outer` before the parallel check (PQEvaluator.cpp:107), `CPU_LOAD_VARIANCE = 0.1`
taken exactly: `ncpu <= (cnt - 1) * 0.1 + 1`. -/
def chopOuterRule (cnt : Nat) (ncpu : Int) : Bool := decide (10 * (ncpu - 1) ≤ (cnt : Int) - 1)

/-- `PQEvaluatorBasic::updateValue` (PQEvaluator.cpp:96-128) for job `cpuindex` of `ncpu`.
`rule` is the outcome of the load-balance test at line 107. -/
def basicTrace (rule : Bool) (gen : Gen B) (full : Bool) (use : Nat → Nat → Bool) (cnt : Nat)
    (cpuindex ncpu : Int) : List (Contrib B) :=
  let parallel := decide (ncpu > 1)          -- isParallel(), PQEvaluator.cpp:157-160
  let chopOuter := parallel && rule
  let chopInner := parallel && !rule
  basicLoop gen full use cnt chopOuter chopInner ncpu (List.range cnt) cpuindex

/-- Loop of `complementary_indices` (PQEvaluator.cpp:51-62), `ii0` being the rest of
`indices0`. -/
def complLoop : List Nat → List Nat → List Nat
  | [], _ => []
  | k :: ks, [] => k :: complLoop ks []
  | k :: ks, i :: is => if k < i then k :: complLoop ks (i :: is) else complLoop ks is

/-- `complementary_indices` (PQEvaluator.cpp:45-64). -/
def complementaryIndices (sz : Nat) (indices0 : List Nat) : List Nat :=
  complLoop (List.range sz) indices0

/-- Removal loop of the OPTIMIZED evaluator (PQEvaluator.cpp:224-245).  The first argument is
the range `[ii0, anchors.end())`, `todo` the number of anchors up to `last_anchor`, `pos` the
index of `ii0`, `sel` the sites currently selected in `bnds0`. -/
def removeLoop (gen : Gen B) (full : Bool) (use : Nat → Nat → Bool) (ncpu : Int) (pop : List Nat) :
    List Nat → Nat → Nat → Int → List Nat → Bool → Int × List (Contrib B)
  | _, 0, _, n, _, _ => (n, [])
  | [], _ + 1, _, n, _, _ => (n, [])
  | i0 :: rest, todo + 1, pos, n, sel, needs =>
    if skips n ncpu then removeLoop gen full use ncpu pop rest todo (pos + 1) (n + 1) sel needs
    else
      let resel := full && needs && decide (pop.length ≤ pos)
      let sel' := if !full then i0 :: rest else if resel then pop else sel
      let needs' := needs && !resel
      let tr := (innerLoop (-1) full use false ncpu i0 (gen i0 sel') (n + 1)).2
      let r := removeLoop gen full use ncpu pop rest todo (pos + 1) (n + 1) sel' needs'
      (r.1, tr ++ r.2)

/-- Addition loop of the OPTIMIZED evaluator (PQEvaluator.cpp:274-295).  `pre` is
`[anchors.begin(), ii1)`, the next argument `[ii1, anchors.end())`. -/
def addLoop (gen : Gen B) (full : Bool) (use : Nat → Nat → Bool) (ncpu : Int)
    (anchors add : List Nat) :
    List Nat → List Nat → Int → List Nat → Bool → List (Contrib B)
  | _, [], _, _, _ => []
  | pre, i0 :: rest, n, sel, needs =>
    if skips n ncpu then addLoop gen full use ncpu anchors add (pre ++ [i0]) rest (n + 1) sel needs
    else
      let resel := full && needs && decide (anchors.length - add.length ≤ pre.length)
      let sel' := if !full then pre ++ [i0] else if resel then anchors else sel
      let needs' := needs && !resel
      let tr := (innerLoop 1 full use false ncpu i0 (gen i0 sel') (n + 1)).2
      tr ++ addLoop gen full use ncpu anchors add (pre ++ [i0]) rest (n + 1) sel' needs'

/-- Removal phase (PQEvaluator.cpp:203-245): the new loop counter and the calls made. -/
def removeTrace (gen0 : Gen B) (full : Bool) (use : Nat → Nat → Bool) (cnt0 : Nat)
    (pop : List Nat) (cpuindex ncpu : Int) : Int × List (Contrib B) :=
  let anchors := if pop.isEmpty then pop else pop ++ complementaryIndices cnt0 pop
  removeLoop gen0 full use ncpu pop anchors (if full then anchors.length else pop.length) 0
    cpuindex anchors full

/-- Addition phase (PQEvaluator.cpp:259-295), `n` is the loop counter left by the removal. -/
def addTrace (gen1 : Gen B) (full : Bool) (use : Nat → Nat → Bool) (cnt1 : Nat)
    (add : List Nat) (n ncpu : Int) : List (Contrib B) :=
  let unchanged := if add.isEmpty then [] else complementaryIndices cnt1 add
  let anchors := unchanged ++ add
  if full then addLoop gen1 full use ncpu anchors add [] anchors n add full
  else addLoop gen1 full use ncpu anchors add unchanged add n add full

/-- The calls made by the fast update of `PQEvaluatorOptimized::updateValue`
(PQEvaluator.cpp:203-295) for one CPU: removal from the old structure with mask `use0`,
addition in the new structure with mask `use1`. -/
def fastTrace (gen0 gen1 : Gen B) (full : Bool) (use0 use1 : Nat → Nat → Bool)
    (cnt0 cnt1 : Nat) (pop add : List Nat) (cpuindex ncpu : Int) :
    List (Contrib B) × List (Contrib B) :=
  let r := removeTrace gen0 full use0 cnt0 pop cpuindex ncpu
  (r.2, addTrace gen1 full use1 cnt1 add r.1 ncpu)

/-- The contract of a bond generator: for any anchor and selection it visits, in some order,
for each selected site exactly the bonds `c i j` from the anchor to that site. -/
def GenSpec (gen : Gen B) (c : Nat → Nat → List B) : Prop :=
  ∀ i sel, (gen i sel).Perm (sel.flatMap fun j => (c i j).map fun b => (j, b))

end Verif.Eval
