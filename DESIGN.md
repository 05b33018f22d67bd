# Formal model of diffpy/libdiffpy in Lean 4 – design

## Layout

* `lean/Verif/Model/*.lean` – executable (or, over ℝ, `noncomputable`) definitions, each
  with a comment citing the C++ file and lines it models and the simplifications made.
* `lean/Verif/Lemmas/*.lean` – helper lemmas.
* `lean/Verif/Props/*.lean` – the property theorems, their small stand-alone
  specifications and, beside each, an `example` that a concrete non-trivial case meets
  the hypotheses.

## Conventions

* C++ `double` is modelled by an ordered field (usually ℚ or ℝ).  Rounding, NaN and
  infinities are outside the model unless a section says otherwise.
* `int`/`long` are `Int`/`Nat`; overflow is a distinct outcome where a property is
  about it (EventTicker), otherwise ignored.
* `std::set`/`map`/`unordered_map` are association lists or finite functions; where
  the C++ iterates over an unordered container the model takes the iteration order as an
  *arbitrary* list parameter, so theorems hold for every order.
* exceptions are `Except`/`Option` results; the state at the throw point is kept when
  the property is about it.

## Plan per property

| id | what is modelled | proof method |
|----|------------------|--------------|
| C01 | `gtick`, tickers as a list, click / updateFrom / copy / load as ops; overflow an explicit outcome | invariant by induction over op lists |
| C02 | `EventTicker::load` | case analysis on the two clocks |
| C03 C04 | mask state (default, exception set, site-all map, type map) and all mask calls | refinement to a function `site → site → Bool` |
| C05 | `updateMaskData` with arbitrary iteration order | induction over the order; counterexample for conflicting "all" masks |
| C06 | same, with ticker click flag | per-call lemma; counterexample for the known miss |
| C07 | BASIC loop over an abstract bond generator with the `n++ % ncpu` guard | sum over residues = whole sum, induction |
| C08 | BASIC loop, half and full sum | double-sum exchange, induction on number of sites |
| C09 C10 | `AtomicStructureAdapter::diff` on lists of ordered atoms | induction on lists, multiset counts |
| C11 C12 C13 | OPTIMIZED loop, tickers, mlast_structure, exception points | algebra of pair sums over multisets, invariant over histories, counterexamples where the code fails |
| C14 | `BaseBondGenerator` as a state machine | the enumerated list = a filter |
| C15 | periodic generator over an abstract lattice point list + real geometry of the buffer | triangle inequality |
| C16 C17 | `BondCalculator` | sorted lists and multisets |
| C18 | `PointsInSphere` loops over ℝ | interval arithmetic on floor/ceil; exact description of the visited set, with the extra points at the hole boundary |
| C19 C20 | `OverlapCalculator` | sums; union-find style partition invariant |
| C21 C22 C23 C24 C26 | attributes, registries, tables | refinement to maps |
| C25 | BVS sums | sums |
| C27 C28 C29 | grid index arithmetic | floor/ceil arithmetic |
| C30–C33 | 3×3 linear algebra over ℝ | matrix identities, convexity |
| C34 | `expandLatticeAtom` | fold invariant |
| C35 C36 | envelopes, profiles over ℝ | real analysis |
| C37 C41 | string functions on `List Char` | list lemmas |
| C38 C39 C45 | `PairQuantity` protocol | state machine |
| C40 | mathutils over ℝ | trigonometry in Mathlib; negation for `asind` |
| C42 C43 | `Wrappers`: structure interface, wrapper objects with addresses, PairCounter over the C14 generator and C07/C08 evaluator | induction over nestings; sums over pairs |
| C55 | `KindDiff`: virtual `diff` of the three classes with their dynamic casts | case analysis, reduction to C11/C12; counterexample across classes |
| C46 | crystal bond generator over ℝ | composition of C15 and C34 models |
| C47 C48 | `PDFGrid` model: ranges, profile addition, stash/restore | pointwise value lemmas over an ordered field |
| C49 C50 | sine FFT over ℝ/ℂ with GSL by specification | discrete orthogonality of sines |
| C51 C52 | `Overlap`: gradients over ℝ with positions; reload of the serialised members | derivative of the pairwise energy (HasDerivAt); counterexamples for occupancies and for the reloaded neighbour cache |
| C53 | `getElectronNumberTable`, `electronnumber`: parsed lines → insert-if-absent map, a static table with load failure | refinement to a map; counterexample for the failed load |
| C54 | `setTypeMask`, `getTypeMask` of the mask state | lookup lemmas of the association map, induction over calls |
| C56 C57 C58 | `Debye`, `Setters`: Debye sum with the precision cutoff, r range and Q step state machine, sine transform and interpolation | pointwise sums with an error bound, invariants over setter histories, counterexamples |
| C59 C60 | `PDFCache`, `PDFGrid`: normalisation, whole evaluation from the bond generator to getRDF/getPDF | composition of C07, C14/C15, C47 models; `finsum` over lattice translations |
| C61 C62 | crystal generator, tensors of equivalent atoms | orbits under a space group, reindexing of sums by isometries; counterexamples for operation order and cell setting |
| C63 | `Composite`: tickers of calculators and their shared components | invariant that the reported ticker passes the clock at every change; induction over calls |
| C64 | `Copies`: calculators with shared evaluator objects over the C12/C13 history model | simulation up to ticker numbers; counterexamples for shared evaluators |
| C65 | `Reload`: archive record and ticker loading over the C12 history model | simulation without the members that are not archived; control order of tickers for clicks during loading |
| C66 | `ObjCryst`: the in-place loops of fetchSymmetryOperations, component and tensor conversion | loop invariants on list blocks; composition with C61/C62 |
| C67 | `ScatteringData`: formula, loading loop over LineReader lines, symbol lookup | real analysis; induction over the blocks of the file |
| C68 | `ScatteringData`: row names, element rule, aliases, charge stripping | induction over the rows with a declarative table as invariant |
| C69 | `Rounding`: the C12 program with an arbitrary rounded addition | simulation relation between rounded and exact runs; induction over calls |
| C70 | `Double`: step counts with a rounding function; round-to-nearest-even with 53 bits | floor/ceil estimates with error bounds; `decide +kernel` only for the concrete counterexample |
| C71 | `Buffers`: memory of static result objects and variables; every function writes component by component as the code does | induction on expressions with the objects each call overwrites |
| C72 | `InPlace`: memory of structure objects, pointers of calculator and evaluator, calls, edits | refinement to `History` on snapshots of the content; invariant that the evaluator's copy is not reachable from outside |
| C73 | `Equality`: doubles with NaN, infinities, signed zeros; comparison and hash functions component by component | reduction to a lexicographic order on extended rationals; a lattice is determined by its base |
| C74 | `Archive`: items of an archive, `serialize` of every class member by member with both directions, versions, exported classes | laws of the combinators (member, sequence, vector, map, pointer) by induction, composed per class |
| C75 | `RuntimePath`: the static variables as state, environment and file system as inputs of every access | characterisation of what is remembered after each kind of call; induction over histories |
| C76 | `Queries`: result methods as checked reads of arrays of the evaluation and of the live structure | exact characterisation of the loops by induction; invariant over resets, merges and queries |
| C77 | `Components`: heap of objects of the eleven classes with settings, programs of new/create/clone/set; static initialisers over `Registry` | induction over programs from the object's creation; invariant that derived numbers of profiles belong to the precision; induction over any permutation of the registrations |
| C78 | `GenObject`: the generator as an object with iterators and checked reads; operations of the user including edits of the structure; periodic generator with its lazily created sphere; `GenCrystal`: the crystal generator, with the storage of the equivalent positions versioned | invariant relating the object to the request (fold over the history); exactness of the loop by induction over the sites and the lattice points left; the loop of C15 for the lattices of the library |
| C79 | `Edits`: container operations on the list of atoms; `Diff` for the difference | positions by list lemmas; multiset subtraction and its triangle inequality over the sequence of edits; minimality from the disjointness of the sorted difference (C10) |
| C80 | `NanDiff`: `Diff` with numbers that may be NaN | refinement to `Diff` without NaN; membership in the side-by-side lists; pairing of unlisted sites by induction over the merge; counterexamples |
| C81 | `Input`: `>> int`, `>> double` on the stream of `LineReader`; `BVFile`: CIF line, header search, data loop, static table | spans of digits, relational specification of texts (`IntText`, `DecText`, `Tokens`, `Layout`), induction over words and lines |
| C82 | `BVSum`: evaluation loop of C01 with the bond generators of C14, C15, C17 and the contribution of C60; exact reals | multiset of generated bonds as sum over lattice images and orbits, counting argument for pairs seen from the other site |
| C83 | `OverlapSum`: evaluation loop of C01 with the bond generators of C14, C15, C17 and the arrays of C19, C20, C51; three kinds of structures as one `Geometry`; exact reals | sum over delivered bonds = sum over atoms of the infinite structure; balance of the pair counts; derivative of a finite sum, images move together |
| C84 | `BondSum`, `StruGeom`: evaluation loop with the bond generators of C14, C15, C17, sorting and merging of C16, filters of C17; exact reals | list of delivered vectors without repetition from the sums of C83, membership in the sorted list; instance of the history theorem C16 for structure objects of each class |
| C85 | DebyeSum.lean: the bonds of C84 fed to the cached Debye sum of C56 with the extended limits of C57; weights by reciprocity of bonds (orbit sums), error bound per bond. |
| C86 | `PDFHistory`: caches, limits, value, stash and restore of PDFCalculator driven by the evaluators of C12, bond generators and differences of structure objects (C55, C84), merging of C38; exact reals | the data of each job follow the abstract values of the history theorem (joint simulation); peaks that are drawn lie within the range of every structure, so pair contributions depend on the two atoms only and `Lawful` holds; calls that raise Qmax do not click, they only shrink the range, and the values kept from the wider range agree on the points looked at (`Quiet`, `setter_quiet`); when ripples and tails exceed maxextension the range of the calculation is that of maxextension for every structure, so the sum over the bonds within it depends on pairs only (`counted`) |
| C87 | `DebyeHistory`: caches, value, stash and restore of BaseDebyeSum and the range adjustment of DebyePDFCalculator (C57) driven by the evaluators of C12, bond generators and differences of structure objects (C55, C84), merging of C38; exact reals. Proved by the joint simulation of C86 with half sums; the counterexample is evaluated in full. |
| C88 | `PDFOutput`: baseline, number density and Fourier output functions on top of the history model of C86, with the transforms of C50. Proved: the joint simulation of C86 gives the value at every point looked at, the transforms are then evaluated as finite sine sums; the baseline by induction over the calls. |
| C89 | `DebyeOutput`: getPDF, getRDFperR and getRDF on top of the history model of C87 with the padded transform of C58. Proved: F(Q) of C87 within its error bound put through the transform, which is linear; interpolation is a convex combination. |
| C90 | `PDFModels`: the calculator of C86/C88 with the width models and profiles of C36 and the displacements of C62 in place of arbitrary ones, and the configuration calls with their clicks. Proved: the conditions of C86/C88 (widths alike from both ends, peaks within the tails, calls without a click) hold, and the terms are the explicit normal distributions. |
| C91 | `DebyeModels`: the calculator of C87/C89 with the width models of C36 and the displacements of C62 in place of arbitrary ones, the tails that the calculator gets from them, and the configuration calls with their clicks. Proved: the conditions of C87/C89 hold, calls of the API other than `setRstep` that do not click change nothing that F(Q) depends on, and the tails bound every peak. |
| C92 | `Mask` with `PDFModels` and `DebyeModels`: the mask state of the calculator goes through the calls and through `setStructure` for every structure evaluated (with any order of the hash containers), and the sums take the pairs that `getPairMask` lets through then. Proved: that choice depends on the calls and on the types or sites of the two atoms only (a relation between the state of the calculator and that of the calls alone), so C90 and C91 hold with it. |
| C93 | `PDFHistory`, `PDFOutput`: the output functions read the cached limits and values with the current parameters. Proved for every history, evaluation and sequence of configuration and baseline calls after it: the arrays are cut safely exactly when the new range is inside the extended one, and the values are those of C86/C88 for the configuration of the evaluation. |
| C94 | `DebyeHistory`, `DebyeOutput`: `getF` and `getPDFAtQmin` read the stored sums and averages with the current Q and r parameters. Proved for every history, evaluation and sequence of settings after it: what F(Q) is for every number of current Q points, what G(r) is on every r grid, and which setters change the number of points. |
| C95 | `BVHistory`: a BVSCalculator object with its settings, tables on a heap, masks, cached symbols and valences, value and merges, and all its calls | settings as folds over the history; half sum of C82 for any `Geometry` with multiplicity balance; partition of the contributions among jobs (C02) and merging (C38); frame argument for settings after the evaluation |
| C96 | `OverlapHistory`: an OverlapCalculator object with its limits, radii tables on a heap, masks, cached radii, stored bonds, neighbour cache and merges, and all its calls | settings as folds over the history; all queries invariant under a reordering of the stored bonds (C19, C20); sums of C83 for any `Geometry`; partition of the contributions among jobs (C02); the cache is empty or filled from the present bonds |
| C97 | `Geometry.atomsOf`: the set of points where the atoms of a site are; `SameAtoms`: an isometry maps one set of atoms to the other, site by site | sums over neighbours as sums over the set of atoms seen from any atom of the site (crystals: by the space group, C62); partition of the atoms of a site among the sites of the other description; then the histories of C95, C96, C90 |
| C98 | `MasksDivide`: every allowed pair is allowed in exactly one part, others in none; one calculator per part, each with its own history | the results of each history are sums over the allowed pairs (C95, C96, C90, C91, C84); such sums are additive over the division, and so is everything linear after them (bands, transforms, linear baselines) |
| C99 | `SameAmounts`: same cell and symmetry, and for every sort (type, position, displacements) the same sum of occupancies | the results of each history are sums over pairs weighted by both occupancies of terms that go by the sorts (C90, C91, C95, C84); a sum over a list weighted by occupancy is a sum over sorts |
| C100 | two histories whose configurations differ in the range | both results are sums or lists over the bonds of the structure (C16, C90, C95, C96) in which the range appears only in the condition on the distance; without limits on Q transform and inverse cancel by orthogonality of the sines |
| C101 | the queries of Model/Queries over any reachable calculator and any present structure | induction on the loops over the bonds; the lazy cache of neighbours lists the bonds that begin at the site, hash order enters only as a permutation |
| C102 | Model/CounterHistory: the counter as a state under all its calls | induction over the history for settings and masks; each evaluation as a permutation of the pairs of the structure; jobs partition the pairs |
| C103 | Model/PDFHistory, DebyeModels, BVHistory, OverlapHistory | sums over the sorts of atoms weighted by the amount; the factors cancel in the normalized sums; results of the calculators by C90-C93 |
| C104 | Model/DoubleCmp: comparisons and wrapping with the rounding `fl64` of binary64 | rounding is monotone, odd and fixes doubles, so order properties carry over; exact differences for numbers on a grid; relative error elsewhere |
| C105 | Model/Threads: `click` in three steps (load, store, copy), `updateFrom` in one; schedules are lists of steps of threads | induction over the schedule with the invariant that tickers are not ahead of the counter and nobody is between load and store |
| C106 | Model/DoubleTrig: `cosd`, `sind`, `acosd` with the rounding `fl64`, the C library's functions arbitrary of given accuracy | case split on the table; Lipschitz bound of the cosine and error analysis of the conversion to radians |
| C107 | Model/DoubleLattice: `setLatPar`, `cartesian`, `volume` with the rounding `fl64`, square root and cosine of the library arbitrary | exact values at 90 degrees from C106; error analysis of the double reciprocal and the products |
| C108 | Model/DoubleNorm: `norm`, `distance`, `setLatBase` with the rounding `fl64` and a correctly rounded square root | the square root of a rounded square by integer bounds on the 53-bit significand; relative errors composed |
| C109 | Model/DoubleBonds: the test of one pair by the generators and translated points, with the rounding `fl64` | a calculated length is not below a component because the square root of a rounded square is exact (C108) and rounding is monotone |
| C110 | Model/DoubleCell: `cartesian`, `fractional`, `ucvFractional`, `ucvCartesian` over the base of C107 with the rounding `fl64` | with right angles the base is diagonal, so each product is one rounding; a wrapped coordinate is below 1 - 2^-26, which survives one more rounding |
| C111 | Model/BVEqual: `operator==`, `BondEqual`, `BondHash`, the constructors and the search in a hash set, with the special values of `double` (Model/Equality) and arbitrary hash functions | case analysis; the bucket of a hash contains every equal key |
| C44 | Debye scattering factor cache | counterexample + partial |

## Trusted base

* **Lean's kernel** (4.33.0) accepts every proof.  `native_decide`, `bv_decide`, compiled evaluation and own axioms are not used.
  `decide +kernel` is used only for concrete examples and counterexamples, never for a universal statement over a sample.
* **Axioms**: `propext`, `Classical.choice` and `Quot.sound`, no others.  [AXIOMS.md](AXIOMS.md) lists them for every theorem of the
  manifest (written by `tools/gen_axioms.py` from `#print axioms`).
* **Mathlib** definitions that appear in statements: ordered fields, ℝ, ℚ, `Finset.sum`, `finsum`, trigonometric functions, `Real.exp`,
  `HasDerivAt`, `List.Perm`, `Int.floor`/`ceil`, `Int.log`.
* **The reading of the C++ source**: that the definitions in `lean/Verif/Model` do what the cited lines do.  Nothing checks this
  mechanically.  The definitions follow the code statement by statement where order matters (state changes before a throw, assignments
  through references, loops over containers); every comment states the simplifications.  The seeded edits in `seeded/LOG.jsonl` show that
  the theorems depend on the definitions.

What stands for what:

| C++ | model | consequence |
|-----|-------|-------------|
| `double` | an ordered field, ℚ or ℝ | rounding, overflow, NaN, infinities are out of sight, except in `Rounding` (an arbitrary rounded addition), `Double` (round to nearest even, 53 bits, unbounded exponent), `Peak.cropped_nan_bug` (division by zero) |
| `int`, `long` | `Int`, `Nat` | no overflow, except `EventTicker` where overflow is an outcome |
| `std::set`, `map` | sorted or association lists | |
| `unordered_map`, `unordered_set` | association list with an arbitrary iteration order | theorems hold for every order |
| exceptions | `Option`/`Except`, or the state at the throw | |
| `shared_ptr` members | values; addresses in `Composite`, `Copies`, `Wrappers`, `InPlace`, `Buffers` | aliasing is visible where a property is about it |
| virtual functions, function objects | function parameters constrained by a specification (`GenSpec`, `Lawful`, `SortSpec`, ...) that is proved for the classes of the library | |
| GSL FFT, `erf`, `exp`, linear solver; `std::sort`, `lower_bound`; boost archives; `strtod` and stream input of numbers; the file system | their specification | trusted |
| ObjCryst++ (`Crystal`, `ScatteringPower`, `SpaceGroup`) | its documented results as parameters | trusted |
| threads | none, the library has none; parallel jobs are separate processes whose values are merged | |

## Source files and the model

Lines are counted by `tools/coverage.py` (lines cited by some definition, of the code lines without comments, includes and braces).
Unless said otherwise the lines without citation are constructors that only initialise members, one-line accessors, `type`, `create`,
`clone` (modelled as a copy), and registration of prototypes.

| file | model | not modelled |
|------|-------|--------------|
| `EventTicker.*` | `Ticker` | boost archive format |
| `Attributes.*` | `Attributes` | visitor plumbing and member function binding of the registration templates (`Attributes.ipp`) |
| `HasClassRegistry.*` | `Registry` | |
| `mathutils.*` | `MathUtils`, `DoubleCmp` (in doubles) | `EpsilonLess`/`EpsilonEqual` on sequences are in `seqEqual`, `seqLess` |
| `serialization.*` | `Reload`, `Archive` (all `serialize` templates) | archive byte format, object tracking |
| `validators.hpp` | `Setters` | messages |
| `version.cpp` | – | constants |
| `PairQuantity.*` | `Mask` (masks), `History` (eval, setStructure, evaluator types), `Protocol` (merge, flags), `InPlace` | attribute registration |
| `PQEvaluator.*` | `Evaluator` (loops), `History` (decisions, tickers), `Rounding` (self-check) | |
| `AtomicStructureAdapter.*` | `Diff` (`diff`, atom order), `KindDiff`, `Equality`, `Edits` (container operations), `NanDiff` | edits while iterating, ranges of the structure itself |
| `PeriodicStructureAdapter.*` | `Periodic`, `KindDiff`, `Equality`, `GenObject` | |
| `CrystalStructureAdapter.*` | `Crystal`, `CrystalMsd`, `KindDiff`, `Equality`, `GenCrystal` | |
| `ObjCrystStructureAdapter.*` | `ObjCryst` | ObjCryst++ itself |
| `EmptyStructureAdapter.cpp`, `NoMetaStructureAdapter.*`, `NoSymmetryStructureAdapter.*`, `StructureAdapter.*` | `Wrappers` | |
| `StructureDifference.*` | `Diff` | |
| `BaseBondGenerator.*` | `BondGen`, `GenObject` | |
| `PointsInSphere.*` | `Points` | |
| `Lattice.*`, `R3linalg.*` | `Lattice`, `R3`, `Buffers` | Lattice parameter accessors |
| `PDFCalculator.*`, `PDFUtils.*` | `PDFGrid`, `PDFCache`, `Fft`, `Setters`, `PDFHistory`, `PDFOutput`, `PDFModels`, `Composite` | |
| `PDFBaseline.*`, `LinearBaseline.*`, `ZeroBaseline.*`, `PDFEnvelope.*`, `*Envelope.*` | `Envelope` | parameter setters of single envelopes |
| `PeakProfile.*`, `GaussianProfile.*`, `CroppedGaussianProfile.*` | `PeakShape` | |
| `PeakWidthModel.*`, `*PeakWidth.*` | `PeakShape`, `Composite` | |
| `BaseDebyeSum.*`, `DebyePDFCalculator.*` | `Debye`, `Setters`, `DebyeHistory`, `DebyeOutput`, `DebyeModels` | |
| `BondCalculator.*` | `BondCalc`, `BondSum` | |
| `OverlapCalculator.*` | `Overlap`, `OverlapSum` | |
| `BVSCalculator.*`, `BVParam.*`, `BVParametersTable.*` | `BV`, `BVSum` (end to end), `BVHistory` (object over its life), `BVFile` (data file, CIF line), `Input` (formatted input), `BVEqual` (comparison, keys) | |
| `PairCounter.*` | `Wrappers`, `CounterHistory` | |
| `AtomRadiiTable.*`, `ConstantRadiiTable.*`, `ScatteringFactorTable.*`, `SFT*.cpp` | `Tables`, `Registry` | |
| `AtomUtils.*` | `AtomUtils` | |
| `runtimepath.*` | `RuntimePath`, `LineReader` | |
| `scatteringfactordata.*` | `ScatteringData`, `LineReader` | content of the data files |

## Defects found in the code

Each has a theorem that exhibits it on the model (named in the manifest notes), unless marked *(reading)*, which was seen while reading
and is not modelled.

Masks: contradicting "all" masks make the result depend on hash order (C03, C05) and change pairs without a click (C06); `getTypeMask`
does not normalise "ALL".

Evaluation: public `setStructure`, an exception inside an evaluation, or `setupParallelRun` before an OPTIMIZED evaluation give a wrong
value (C12, C13); the CHECK evaluator throws in correct parallel runs and on every fast update of BondCalculator (C12, C16); its tolerance
misses an absolute value (C69); it cannot be serialized (C65); copies of a calculator share the evaluator (C64); structures of different
classes with the same atoms are taken as equal (C55); crystals that differ only in the symmetry precision compare equal, atoms with
NaN members break the order that set operations assume (C73); rounding errors of removed contributions stay in an OPTIMIZED value (C69).

BondCalculator: a single parallel job sends an empty value, fast updates in parallel jobs lose bonds on merging (C16).

Geometry: `asind` is `acosd` except at five arguments (C40); a rejected `setLatBase` corrupts the base (C32); `PointsInSphere` visits
points inside the hole when a lattice point lies exactly at Rmin (C18); averaging of equivalent positions across the cell boundary (C34);
stale symmetry cache after in-place edits (C34); crystals without operations miss bonds of atoms outside the cell (C46); displacement
tensors are wrong when the identity is not the first operation or axes of unequal reciprocal length are mixed (C62); functions that return
references to static objects alias (C71); a loop over a copy of a sphere generator never ends and advances the original (C18).

PDF: getters after `setRmax` without evaluation leave their arrays (C29); a bond that touches only the first grid point may be lost (C47);
no tolerance at rmax (C70); `setQmax` from negligible to usable values and Debye `setRstep` change the range without a click (C45);
Debye `setQmax(0)` throws after changing the state (C45); the Debye range depends on earlier calls (C57); interpolation reads one element
past the end (C58); the Debye sum uses the occupancy of the first site of a type (C44) and stops at the first small term (C56);
`CroppedGaussianProfile` is NaN at zero width, `maxWidth` is not a bound in several cases (C36); assignment to the reference of
`getPeakWidthModel()` is not noticed (C63).

Tables: BV parameter lookup depends on the order of atoms of equal valence (C24), bond valence sums are wrong for sites of unequal
multiplicity (C25, C82), `bvdiff`, `bvmsdiff` and `getRmaxUsed` read past the end of their arrays after an atom was added to the structure object (C95), `valences()` ignores `setAtomValence` until the next evaluation (C95), `setCustom` of an element of the table itself uses freed memory *(reading)*; `registerThisType` of a scattering table
with a taken alias leaves the type registered (C22); a failed load of a data file is used silently (C53, C67); "H-2" has the scattering
length of H (C68); isotope ions of higher charge are not found (C67); atom radii are printed with six digits *(reading)*.

Overlap: gradients ignore occupancies (C51); gradients of crystals add bonds to equivalent atoms without turning them back, so that the value depends on whether the same atoms are given with symmetry (C83); coordination numbers double after reload (C52).


Archives: a load that fails leaves the target half loaded (C74); `replacePairQuantityStructure` of a calculator whose OPTIMIZED evaluator
holds a copy of an unexported structure still cannot be saved (C74).

Data directory: a file system that changes during a call of `datapath` can give an empty directory or a null pointer (C75).

Queries: results asked for after atoms were erased (or added, for valence differences and `flipDiffTotal`) read outside arrays; a neighbour
query between two parallel merges hides the bonds merged later (C76).

Bond generators: before an anchor is selected `site0()` is 0 but bonds start from the origin; a moved anchor atom or a changed lattice is
not noticed; in a periodic generator a limit changed inside a loop makes `next()` use a null pointer and a selection made inside a loop
does not end it; `next()` on a finished crystal generator reads past the list of sites; creating a second generator for a crystal inside a
loop leaves `Ucartesian1()` and `msd()` of the first reading freed memory until its next step (C78).

Differences: the first atoms of an empty structure never allow a fast update (C79); with NaN the atom order is not an order, and a change
of an atom to or from NaN can be missed by a sorted difference, so that the OPTIMIZED evaluator keeps the old result (C80).

PDFCalculator: the CHECK evaluator compares the raw arrays of the two evaluations, which differ in length or hold different tails when the range of the
calculation changed, so that it throws although the results agree (`fast_value_differs`); `setQmax` clicks only when qmax decreases.

DebyePDFCalculator: `resetValue` widens or narrows the range with the peak widths of the structure and clicks only when the Q step changes, so
that with a Q step set by the user (or a lower limit beyond the extension) a fast update keeps pairs of the old range and F(Q) differs from
that of a new calculator (`stale_range_bug`, C87); `setRstep` does not click, so that a fast update may remove bonds in another range than they were added in (`setRstep_bug`: F(Q) twice too large).
The results are read with the current parameters: after `setRmax` beyond the extended range (PDFCalculator, C93) or after raising Qmax or rmax (DebyePDFCalculator, C94,
`raised_qmax_bug`, `raised_rmax_bug`) without another evaluation the getters leave their arrays; after PDFCalculator `setRstep` old values appear under the new grid
(`getRDF_after_setRstep_bug`), after lowering Qmax DebyePDFCalculator `getF` still has the old number of points, those beyond the new Qmax without normalisation (`stale_F_partial`).

OverlapCalculator: a query of neighbours before the last merge of parallel results makes the calculator forget the neighbours merged later (C96).

Data files: a bond valence file without its header mark or the empty line after it gives an empty table without complaint, one that cannot
be opened makes only the first call throw, and a valence that runs into the next word is accepted (C81).

Doubles: comparisons with the tolerance 2^-26 are not complementary once numbers exceed 2^27 or fall below 2^-79: two values can be neither equal, less nor greater
(`none_holds_bug`), both equal and greater (`both_hold_bug`), and `eps_lt(x, y)` can differ from `eps_gt(y, x)` (`lt_not_gt_bug`, C104). `sind` subtracts
from 90, so that the sine of angles up to 2^-48 degrees is zero (`sindF_tiny_bug`, C106).
`setLatPar` gets the first base vector from the reciprocal of a reciprocal, so that a cube of edge 49 has base vectors of different lengths (`cube_bug`, C107)
and an atom its neighbours at the edge length along one axis but not along another (`neighbours_bug`, C109); setting a lattice to its own edges and angles can change it (`reset_changes_bug`, C108).

Threads: `EventTicker::click` increments a process-wide counter without a lock. If another thread's increment is interrupted between load and store, the counter falls back
over all the clicks made meanwhile; a change made after that gets a ticker older than a value calculated before it, and is not noticed (`lost_click_bug`, C105).
