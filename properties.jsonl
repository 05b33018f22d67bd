{"id": "C01", "title": "A click makes a ticker strictly newer than every other ticker", "statement": "After EventTicker::click() the ticker compares strictly greater than every other ticker's value at that moment and than its own earlier value; updateFrom yields the later of the two values and never moves a ticker back; no ticker is ever later than the process-wide clock.", "quantifier": "every sequence of construct / click / updateFrom / copy / load operations over any number of tickers, while the counter does not overflow", "why_tests_cant": "The change tracking of every calculator rests on it; histories are unbounded and the interleaving of tickers is arbitrary.", "anchors": ["src/diffpy/EventTicker.cpp: EventTicker::click, updateFrom, gtick", "src/diffpy/EventTicker.hpp: load, save"]}
{"id": "C02", "title": "Loading tickers from an archive is order-safe", "statement": "Tickers restored from one archive keep their relative order (never invert it), and a restored ticker is never later than the process clock, so the next click is still strictly newer than it.", "quantifier": "every archived pair of tickers, archived clock value and process clock value", "why_tests_cant": "Depends on the relation of two process clocks, which a test process cannot vary freely.", "anchors": ["src/diffpy/EventTicker.hpp: EventTicker::load"]}
{"id": "C03", "title": "setPairMask is read back, is symmetric and touches no other pair", "statement": "After setPairMask(i,j,m) with non-negative indices, getPairMask(i,j) = getPairMask(j,i) = m while getPairMask of every other pair is as before; with one negative index exactly the pairs of the other site with the sites of the current structure read m, and with both negative every pair reads m; a mask set for two sites survives any later structure.", "quantifier": "every mask state reachable by any sequence of mask calls, all sites i, j and other pairs", "why_tests_cant": "The stored set holds exceptions to a default whose meaning flips on invertMask; only a proof covers all histories.", "anchors": ["src/diffpy/srreal/PairQuantity.cpp: setPairMask, setPairMaskValue, getPairMask"]}
{"id": "C04", "title": "invertMask flips every pair; maskAllPairs sets every pair", "statement": "After invertMask() getPairMask(i,j) is the negation of what it was for all i, j and two inversions restore all answers; after maskAllPairs(m) all pairs and all type pairs read m.", "quantifier": "every reachable mask state and every pair of sites and of types", "why_tests_cant": "Quantifies over all pairs and histories.", "anchors": ["src/diffpy/srreal/PairQuantity.cpp: invertMask, maskAllPairs"]}
{"id": "C05", "title": "Type masks decide the pair mask after a structure is set", "statement": "With type masks in use, after the structure is set getPairMask(i,j) = getTypeMask(type of i, type of j) for all sites of the structure, independent of the container's iteration order.", "quantifier": "every set of type masks, every assignment of types to sites, every iteration order of the hash containers", "why_tests_cant": "Iteration order of the hash map is not controllable by a test, and the number of types/sites is unbounded.", "anchors": ["src/diffpy/srreal/PairQuantity.cpp: setTypeMask, getTypeMask, updateMaskData"]}
{"id": "C06", "title": "Every effective mask change is noticed by the change ticker", "statement": "If a mask call changes the answer of getPairMask for any pair, the ticker of the calculator is clicked, so that an OPTIMIZED evaluation does not reuse a stale value.", "quantifier": "every reachable mask state and every mask call", "why_tests_cant": "A stale cache shows only for particular histories.", "anchors": ["src/diffpy/srreal/PairQuantity.cpp: setPairMask, setTypeMask, invertMask, maskAllPairs, ticker"]}
{"id": "C07", "title": "Parallel jobs partition the serial pair contributions", "statement": "For any ncpu >= 1 the jobs with cpuindex 0..ncpu-1 process every pair contribution of the serial evaluation exactly once, so merging their values equals the serial value.", "quantifier": "every structure, mask, ncpu and both chopping modes", "why_tests_cant": "Unbounded number of sites, bonds and CPUs; a lost or doubled pair is visible only for particular counts.", "anchors": ["src/diffpy/srreal/PQEvaluator.cpp: PQEvaluatorBasic::updateValue, setupParallelRun", "src/diffpy/srreal/PairQuantity.cpp: mergeParallelData, executeParallelMerge"]}
{"id": "C08", "title": "Half sum with scale 2 equals the full double sum", "statement": "When a pair contribution does not depend on the bond's orientation the half-loop evaluation (scale 2 off the diagonal) equals the full-sum evaluation.", "quantifier": "every structure size, mask and symmetric contribution", "why_tests_cant": "Equality of two summation orders over unbounded index sets.", "anchors": ["src/diffpy/srreal/PQEvaluator.cpp: PQEvaluatorBasic::updateValue"]}
{"id": "C09", "title": "Site-by-site structure difference is sound", "statement": "When diff reports a side-by-side difference, every site index not listed in pop0 (resp. add1) exists in both structures with equal atoms; pop0/add1 are strictly increasing valid indices; equal structures give an empty difference.", "quantifier": "every pair of atomic structures of any size", "why_tests_cant": "Off-by-one at unequal lengths needs all sizes.", "anchors": ["src/diffpy/srreal/AtomicStructureAdapter.cpp: AtomicStructureAdapter::diff", "src/diffpy/srreal/StructureDifference.cpp"]}
{"id": "C10", "title": "Sorted structure difference is sound", "statement": "When diff reports a sorted difference, removing pop0 from the first structure and add1 from the second leaves the same multiset of atoms; pop0/add1 are strictly increasing valid indices and minimal: no atom value occurs in both removed and added lists.", "quantifier": "every pair of atomic structures with any repetition of atoms", "why_tests_cant": "Duplicates and order of atoms are unbounded.", "anchors": ["src/diffpy/srreal/AtomicStructureAdapter.cpp: AtomicStructureAdapter::diff"]}
{"id": "C11", "title": "Fast update equals full evaluation", "statement": "Starting from the full value of the old structure, the OPTIMIZED removal and addition phases give exactly the full value of the new structure (half-sum and full-sum modes, any mask used with side-by-side differences).", "quantifier": "every pair of structures with a sound difference, every symmetric pair contribution, in any commutative group of values", "why_tests_cant": "Depends on all combinations of popped, added and unchanged sites.", "anchors": ["src/diffpy/srreal/PQEvaluator.cpp: PQEvaluatorOptimized::updateValue"]}
{"id": "C12", "title": "OPTIMIZED and BASIC calculators return the same value for every call history", "statement": "In any history of eval, configuration changes and setStructure calls, the value returned by eval of an OPTIMIZED calculator equals the BASIC value for the same structure and configuration.", "quantifier": "every finite history of API calls", "why_tests_cant": "Cache coherence over unbounded histories.", "anchors": ["src/diffpy/srreal/PQEvaluator.cpp: PQEvaluatorOptimized::updateValue", "src/diffpy/srreal/PairQuantity.cpp: eval, setStructure, setEvaluatorType"]}
{"id": "C13", "title": "A failed evaluation does not poison later ones", "statement": "If eval throws at any point, the next successful eval on the same calculator still returns the correct value.", "quantifier": "every history and every point inside eval at which an exception may be raised", "why_tests_cant": "Crash points inside the fast path are not reachable by ordinary unit tests.", "anchors": ["src/diffpy/srreal/PQEvaluator.cpp: PQEvaluatorOptimized::updateValue", "src/diffpy/srreal/PairQuantity.cpp: eval, setStructure"]}
{"id": "C14", "title": "The bond generator visits exactly the bonds in range", "statement": "For a selected anchor and site range the generator yields, in site order and exactly once, the selected sites whose distance from the anchor is within [rmin, rmax] and not zero, including the early-exit distance shortcut.", "quantifier": "every structure, anchor, selection, rmin and rmax", "why_tests_cant": "Unbounded sites and real-valued geometry.", "anchors": ["src/diffpy/srreal/BaseBondGenerator.cpp: rewind, next, advanceWhileInvalid, updateDistance, bondOutOfRange, atSelfPair, selectAnchorSite, selectSiteRange, selectSites"]}
{"id": "C15", "title": "Periodic bond generation misses no image and repeats none", "statement": "For a periodic structure every lattice image of every selected site with distance in [rmin,rmax] is produced exactly once, provided the lattice-point iterator covers the buffered shell.", "quantifier": "every lattice, set of sites, anchor, rmin <= rmax", "why_tests_cant": "Geometry over the reals: the buffer by the unit-cell diagonal must suffice for all cells.", "anchors": ["src/diffpy/srreal/PeriodicStructureAdapter.cpp: PeriodicStructureBondGenerator", "src/diffpy/srreal/Lattice.cpp: ucMaxDiagonalLength"]}
{"id": "C16", "title": "BondCalculator values are the sorted bonds of the current structure", "statement": "After every eval of any history the stored bonds are sorted by (distance, site0, site1, direction) and, as a multiset, exactly the bonds of the last structure that pass the filters; fast updates and parallel merges included.", "quantifier": "every history of structures with removed/added bond lists", "why_tests_cant": "Sorted multiset difference and merge over unbounded lists.", "anchors": ["src/diffpy/srreal/BondCalculator.cpp: finishValue, addPairContribution, executeParallelMerge, bmerge helpers, stashPartialValue, restorePartialValue"]}
{"id": "C17", "title": "Cone filters", "statement": "A bond passes the directional filter iff no cone is set or some cone contains it; a cone with half-angle >= 180 admits all; a bad cone direction is rejected without changing the filters.", "quantifier": "every bond direction and list of cones", "why_tests_cant": "Unbounded cone lists and real directions.", "anchors": ["src/diffpy/srreal/BondCalculator.cpp: checkConeFilters, filterCone, filterOff"]}
{"id": "C18", "title": "Lattice points in a spherical shell", "statement": "PointsInSphere visits no integer triplet twice, and visits (m,n,o) if and only if the length r of its lattice vector satisfies r < Rmax and either Rmin <= r or (a defect) some o' < o gives a lattice vector of length exactly Rmin; for Rmin <= 0, or when no lattice vector has length Rmin, that is the shell Rmin <= r < Rmax. The same holds for the reflections in Q and in d-spacing.", "quantifier": "every non-degenerate lattice and all Rmin, Rmax (positive dmin, dmax)", "why_tests_cant": "Reals; exact hits at shell boundaries are measure-zero for random tests.", "anchors": ["src/diffpy/srreal/PointsInSphere.cpp: PointsInSphere::next_m, next_n, next_o, rewind, ReflectionsInQminQmax, ReflectionsInDmaxDmin"]}
{"id": "C19", "title": "flipDiffTotal predicts the effect of swapping two atoms", "statement": "flipDiffTotal(i,j) equals totalSquareOverlap after exchanging the radii of sites i and j minus totalSquareOverlap before; zero for i=j or equal radii, antisymmetric under performing the swap, symmetric in i and j.", "quantifier": "every overlap list and pair of sites", "why_tests_cant": "Sums over unbounded neighbour lists with the (i,j) bond double counted.", "anchors": ["src/diffpy/srreal/OverlapCalculator.cpp: flipDiffTotal, suboverlap, totalSquareOverlap, siteSquareOverlaps"]}
{"id": "C20", "title": "neighborhoods() partitions sites into connected components", "statement": "The sets returned by neighborhoods() are disjoint and two sites share a set iff they are linked by a chain of overlapping pairs; every site is in one set unless it is masked out and isolated.", "quantifier": "every list of overlapping pairs and number of sites", "why_tests_cant": "Transitive closure over any graph and processing order.", "anchors": ["src/diffpy/srreal/OverlapCalculator.cpp: neighborhoods"]}
{"id": "C21", "title": "Double attributes behave like a checked map", "statement": "setDoubleAttr(n,x) then getDoubleAttr(n) gives the set value and leaves other attributes alone; unknown name raises an attribute error, an ambiguous name a logic error, a read-only attribute a read-only error, and a failed call changes nothing.", "quantifier": "every tree of attribute-bearing objects, attribute name and call history", "why_tests_cant": "Trees and histories are unbounded.", "anchors": ["src/diffpy/Attributes.cpp", "src/diffpy/Attributes.ipp"]}
{"id": "C22", "title": "Class registry behaves like a map from names and aliases to prototypes", "statement": "Registered types and aliases resolve to their prototype; registering a taken name or aliasing to a different prototype fails without effect; aliasing is idempotent; deregistering removes the type and all its aliases and nothing else and returns how many names were removed; createByType fails exactly for unknown names. (Registration in the plain registry; ScatteringFactorTable adds an alias in a second step.)", "quantifier": "every sequence of registry calls", "why_tests_cant": "Histories unbounded.", "anchors": ["src/diffpy/HasClassRegistry.ipp"]}
{"id": "C23", "title": "Atom radii table: custom overrides and atomic fromString", "statement": "lookup returns the custom radius if one is set and the standard radius otherwise; resetCustom/resetAll undo; fromString either applies all its entries or, on any malformed entry, none; toString then fromString restores the custom map, each radius rounded to the six significant digits printed, for symbols without blanks, commas and colons.", "quantifier": "every table state, string and call history", "why_tests_cant": "Unbounded strings and histories.", "anchors": ["src/diffpy/srreal/AtomRadiiTable.cpp"]}
{"id": "C24", "title": "Bond valence parameters", "statement": "bondvalenceToDistance inverts bondvalence; table lookup prefers custom exact, standard exact, custom wildcard (cation valence 9), standard wildcard, none; lookup(a0,v0,a1,v1) = lookup(a1,v1,a0,v0).", "quantifier": "every table content, atom pair and valences", "why_tests_cant": "Real functions and unbounded tables.", "anchors": ["src/diffpy/srreal/BVParam.cpp", "src/diffpy/srreal/BVParametersTable.cpp"]}
{"id": "C25", "title": "Bond valence sums", "statement": "value()[i] is the sum of bond valences over all bonds of site i with the sign of the site's valence convention, each bond crediting both ends equally; the cut-off derived from the valence precision drops only bonds below that precision.", "quantifier": "every structure and parameter table", "why_tests_cant": "Unbounded sums and real exponentials.", "anchors": ["src/diffpy/srreal/BVSCalculator.cpp"]}
{"id": "C26", "title": "Scattering factor table customisation", "statement": "lookup uses the custom entry (source symbol and scale) if any, else the standard value; setCustomAs/resetCustom/resetAll behave as map updates and click the ticker exactly when the effective table changes.", "quantifier": "every call history and symbol", "why_tests_cant": "Unbounded histories.", "anchors": ["src/diffpy/srreal/ScatteringFactorTable.cpp"]}
{"id": "C27", "title": "PDF r-grid", "statement": "The r-grid consists of consecutive integer multiples of rstep, starts at the first multiple not below rmin (up to the equality tolerance) and ends with the last multiple below rmax; the calculation range contains it, starts at or above zero and the extension does not exceed maxextension per the rescaling rule.", "quantifier": "all rmin, rmax, rstep and extension widths", "why_tests_cant": "Rounding boundaries over all reals.", "anchors": ["src/diffpy/srreal/PDFUtils.cpp", "src/diffpy/srreal/PDFUtils.ipp", "src/diffpy/srreal/PDFCalculator.cpp: cacheRlimitsData, rgridSteps"]}
{"id": "C28", "title": "PDF partial values survive a change of the calculation range", "statement": "restorePartialValue puts each stashed value at the same r position in the new range, and new positions read zero.", "quantifier": "all old and new ranges with stashed arrays", "why_tests_cant": "All alignments of the two ranges.", "anchors": ["src/diffpy/srreal/PDFCalculator.cpp: stashPartialValue, restorePartialValue"]}
{"id": "C29", "title": "PDF output arrays match the r-grid and are in bounds", "statement": "When the range has not been changed since the last evaluation, getPDF, getRDF and getRDFperR have exactly one value for each grid point, and internal slices (ripple cut, extended RDF) never leave the arrays.", "quantifier": "all parameter settings", "why_tests_cant": "All combinations of rounding.", "anchors": ["src/diffpy/srreal/PDFCalculator.cpp: cutRipplePoints, getExtendedRDF, getPDF"]}
{"id": "C30", "title": "Lattice conversions are mutually inverse and isometric", "statement": "cartesian(fractional(v)) = v = fractional(cartesian(v)); the lattice dot product, norm and distance of fractional vectors equal the Cartesian ones; base rotation preserves lengths.", "quantifier": "all non-degenerate lattices and vectors", "why_tests_cant": "Continuum of lattices.", "anchors": ["src/diffpy/srreal/Lattice.cpp", "src/diffpy/srreal/Lattice.hpp"]}
{"id": "C31", "title": "Unit-cell wrapping", "statement": "ucvFractional maps each coordinate into [0,1) by an integer shift, up to the documented round-off to 0; it is idempotent; ucvCartesian is a lattice translation of its argument.", "quantifier": "all vectors", "why_tests_cant": "Continuum of vectors.", "anchors": ["src/diffpy/srreal/Lattice.hpp: ucvFractional", "src/diffpy/srreal/Lattice.hpp: ucvCartesian"]}
{"id": "C32", "title": "Rejected lattice base leaves the lattice usable", "statement": "If setLatBase/setLatPar throws, the lattice still behaves as before the call.", "quantifier": "all lattices and rejected arguments", "why_tests_cant": "Exception points inside setters.", "anchors": ["src/diffpy/srreal/Lattice.cpp: setLatBase"]}
{"id": "C33", "title": "The maximal unit-cell diagonal bounds intra-cell distances", "statement": "Any two points of the closed unit cell are at most ucMaxDiagonalLength apart.", "quantifier": "all lattices and pairs of points in the cell", "why_tests_cant": "Continuum.", "anchors": ["src/diffpy/srreal/Lattice.cpp: ucMaxDiagonal, ucMaxDiagonalLength"]}
{"id": "C34", "title": "Symmetry expansion of crystal sites", "statement": "The equivalent positions of a site are pairwise distinct modulo lattice translations within the precision, each is an image under some symmetry operation, and every image coincides with one of them; multiplicity is their number and is current after any change of atoms, lattice or operations.", "quantifier": "all sets of symmetry operations, positions and histories", "why_tests_cant": "Unbounded operations; cache histories.", "anchors": ["src/diffpy/srreal/CrystalStructureAdapter.cpp: expandLatticeAtom, siteMultiplicity, updateSymmetryPositions"]}
{"id": "C35", "title": "PDF envelopes", "statement": "The applied envelope is the product over the set of envelope types, one per type (adding replaces), independent of insertion order; removing a type restores; the spherical shape envelope lies in [0,1], is non-increasing and vanishes beyond the diameter; step-cut is 1 up to the cut and 0 after.", "quantifier": "all envelope sets, histories, r >= 0", "why_tests_cant": "Continuum and histories.", "anchors": ["src/diffpy/srreal/PDFEnvelope.cpp", "src/diffpy/srreal/SphericalShapeEnvelope.cpp", "src/diffpy/srreal/StepCutEnvelope.cpp"]}
{"id": "C36", "title": "Peak profiles and widths", "statement": "Gaussian profile is symmetric and non-negative; values outside the bound are below precision relative to the maximum; the cropped profile is zero outside; the width model's maxWidth bounds calculate for every bond in range.", "quantifier": "all widths, precisions and r", "why_tests_cant": "Continuum.", "anchors": ["src/diffpy/srreal/GaussianProfile.cpp", "src/diffpy/srreal/CroppedGaussianProfile.cpp", "src/diffpy/srreal/JeongPeakWidth.cpp", "src/diffpy/srreal/DebyeWallerPeakWidth.cpp"]}
{"id": "C37", "title": "Atom symbol parsing", "statement": "For symbols that contain a letter atomBareSymbol strips exactly the isotope prefix and charge suffix and is idempotent; atomValence reads the signed charge suffix; symbols without charge have valence 0.", "quantifier": "all strings", "why_tests_cant": "Unbounded strings.", "anchors": ["src/diffpy/srreal/AtomUtils.cpp"]}
{"id": "C38", "title": "Parallel merge protocol", "statement": "mergeParallelData rejects a part of a different size and a surplus part without changing the value; finishValue runs exactly when the last part is merged; the merged value is the element-wise sum independent of the order of arrival.", "quantifier": "every ncpu and arrival order", "why_tests_cant": "All permutations of parts.", "anchors": ["src/diffpy/srreal/PairQuantity.cpp: mergeParallelData, executeParallelMerge"]}
{"id": "C39", "title": "Evaluator type switching", "statement": "setEvaluatorType to an unsupported type throws and leaves the calculator unchanged; switching keeps flags and CPU assignment; the reported type is the last successfully set one.", "quantifier": "all calculators and histories", "why_tests_cant": "Histories.", "anchors": ["src/diffpy/srreal/PairQuantity.cpp: setEvaluatorType", "src/diffpy/srreal/PQEvaluator.cpp: createPQEvaluator"]}
{"id": "C40", "title": "Degree-based trigonometry and tolerance comparison", "statement": "cosd, sind, acosd, asind agree with the mathematical functions of degree arguments, are exact at multiples of 30/90 degrees; eps_eq, eps_lt, eps_gt are mutually exclusive and exhaustive. On sequences of any lengths EpsilonEqual is equal length and entries within tolerance; EpsilonLess is decided by the first pair of entries that differ by more than the tolerance, or else by the length, and is never true both ways.", "quantifier": "all real arguments", "why_tests_cant": "Continuum.", "anchors": ["src/diffpy/mathutils.ipp", "src/diffpy/mathutils.hpp"]}
{"id": "C41", "title": "Data file line reader", "statement": "The line reader classifies each line as blank, comment or data, counts lines and yields the words of the line.", "quantifier": "all strings", "why_tests_cant": "Unbounded strings.", "anchors": ["src/diffpy/runtimepath.cpp: LineReader"]}
{"id": "C42", "title": "Structure wrappers", "statement": "The nometa and nosymmetry wrappers present the same sites as the wrapped structure, wrapping twice equals wrapping once, nosymmetry reports multiplicity 1, zero density and only the bonds between the listed sites, nometa disables the structure's own calculator configuration, in any nesting; the difference of wrapped structures is that of the wrapped ones and sound.", "quantifier": "all structures and nestings", "why_tests_cant": "Unbounded nesting.", "anchors": ["src/diffpy/srreal/NoMetaStructureAdapter.cpp", "src/diffpy/srreal/NoSymmetryStructureAdapter.cpp"]}
{"id": "C43", "title": "Pair counting and occupancy", "statement": "PairCounter returns the number of unmasked pairs of atoms in range, n(n-1)/2 for n distinct atoms within the default range, from a serial run and from the merged parts of any number of parallel jobs; totalOccupancy is the sum of occupancy times multiplicity and agrees with the expanded structure; the number density does not depend on the choice of supercell.", "quantifier": "all n", "why_tests_cant": "All sizes.", "anchors": ["src/diffpy/srreal/PairCounter.cpp", "src/diffpy/srreal/StructureAdapter.cpp: totalOccupancy"]}
{"id": "C44", "title": "Debye sum scattering factors honour site occupancy", "statement": "The scattering contribution of a site in the Debye sum is the factor of its type times its own occupancy.", "quantifier": "all structures", "why_tests_cant": "All occupancy patterns.", "anchors": ["src/diffpy/srreal/BaseDebyeSum.cpp: cacheStructureData"]}
{"id": "C45", "title": "Change-tracked setters", "statement": "Numeric setters (rmin, rmax, qmin, qmax, rstep, ...) validate their argument, leave the object unchanged when they throw and click the ticker whenever the result of an evaluation may change.", "quantifier": "all calculators, values and histories", "why_tests_cant": "Histories.", "anchors": ["src/diffpy/srreal/PairQuantity.cpp: setRmin, setRmax", "src/diffpy/srreal/PDFCalculator.cpp", "src/diffpy/validators.hpp"]}
{"id": "C46", "title": "Crystal bond generation covers all equivalent positions", "statement": "For a crystal structure with at least one symmetry operation the bond generator yields, for each selected site, each of its symmetry-equivalent positions and each lattice vector, the bond whose length is in [rmin, rmax], exactly once.", "quantifier": "all lattices, symmetry operations, positions, ranges", "why_tests_cant": "Every geometry and range.", "anchors": ["src/diffpy/srreal/CrystalStructureAdapter.cpp: CrystalStructureBondGenerator"]}
{"id": "C47", "title": "The restricted calculation range loses no bond contribution", "statement": "When the range extension fits maxextension, at every grid point that is at least one step above rmin minus the ripple extension (or when the range starts at zero) the RDF equals the sum of the contributions of all bonds of the structure, although the calculator visits only bonds within an extended range and adds each profile only where it is non-negligible; dropped contributions are bounded by the profile precision.", "quantifier": "all ranges, steps, extensions, profiles and bond lists", "why_tests_cant": "Every combination of range, width and bond.", "anchors": ["src/diffpy/srreal/PDFCalculator.cpp: addPairContribution, cacheRlimitsData, extFromPeakTails"]}
{"id": "C48", "title": "Fast update of a PDF gives the RDF of a complete evaluation", "statement": "After a structure change the RDF from the fast update (stashed value rescaled to the new range, minus removed plus added peaks) equals the RDF of a complete evaluation of the new structure.", "quantifier": "all ranges, extensions before and after, profiles, removed and added bonds", "why_tests_cant": "All changes and extensions.", "anchors": ["src/diffpy/srreal/PDFCalculator.cpp: stashPartialValue, restorePartialValue, addPairContribution"]}
{"id": "C49", "title": "Sine Fourier transformations", "statement": "fftgtof returns the sine transform of the sampled function on a power-of-two Q grid with the stated step; fftftog with the matching step inverts it.", "quantifier": "all sample vectors, steps and starting points", "why_tests_cant": "All lengths and values.", "anchors": ["src/diffpy/srreal/PDFUtils.cpp / PDFCalculator.cpp: fftgtof, fftftog"]}
{"id": "C50", "title": "Q-window of the PDF", "statement": "getPDF and getF access no element outside their arrays, return one value per grid point, keep exactly the Q points with qmin <= Q < qmax and give the direct PDF when the window is full.", "quantifier": "all settings accepted by the setters", "why_tests_cant": "All settings.", "anchors": ["src/diffpy/srreal/PDFCalculator.cpp: getExtendedPDF, getExtendedF, getF, getQgrid"]}
{"id": "C51", "title": "Overlap gradients", "statement": "OverlapCalculator.gradients() is the gradient of totalSquareOverlap() with respect to the Cartesian positions of the atoms.", "quantifier": "all structures, positions, radii and occupancies", "why_tests_cant": "A derivative at every geometry.", "anchors": ["src/diffpy/srreal/OverlapCalculator.cpp: gradients, totalSquareOverlap, suboverlap"]}
{"id": "C52", "title": "Saving and loading a calculator keeps its answers", "statement": "A calculator that is saved to an archive and loaded again answers every query as before.", "quantifier": "all query histories before the save", "why_tests_cant": "All histories.", "anchors": ["src/diffpy/srreal/OverlapCalculator.hpp: serialize", "src/diffpy/srreal/OverlapCalculator.cpp: getNeighborIds, cacheNeighbors"]}
{"id": "C53", "title": "Standard data tables", "statement": "After the electron number table was loaded successfully, every query returns the entry of the file: the number of an element is its Z and the number of an ion is Z minus its charge, under both spellings of the charge; the table stays the same for the rest of the process.", "quantifier": "all file contents, symbols and query histories", "why_tests_cant": "All files and histories.", "anchors": ["src/diffpy/srreal/scatteringfactordata.cpp: getElectronNumberTable, electronnumber"]}
{"id": "C54", "title": "Type masks are read back", "statement": "getTypeMask returns, in both orders of the types, the last mask given by setTypeMask for that pair; a mask for one type and 'all' decides every pair whose first type it is and, unless the first type has its own 'all' mask, every pair whose second type it is; other pairs are not affected; a mask for all types decides every pair.", "quantifier": "all mask states, atom types and call sequences", "why_tests_cant": "All histories of mask calls and all type names.", "anchors": ["src/diffpy/srreal/PairQuantity.cpp: setTypeMask, getTypeMask"]}
{"id": "C55", "title": "Structures of different kind are not mixed up by fast updates", "statement": "After evaluating one structure the OPTIMIZED evaluator gives the correct value for any other structure, also when one is finite, periodic or a crystal with symmetry and the other is not.", "quantifier": "all pairs of finite, periodic and crystal structures", "why_tests_cant": "All pairs of classes, lattices and atoms.", "anchors": ["src/diffpy/srreal/AtomicStructureAdapter.cpp: diff", "src/diffpy/srreal/PeriodicStructureAdapter.cpp: diff", "src/diffpy/srreal/CrystalStructureAdapter.cpp: diff", "src/diffpy/srreal/PQEvaluator.cpp: PQEvaluatorOptimized::updateValue"]}
{"id": "C56", "title": "The Debye sum is the Debye formula", "statement": "getF of the Debye calculator is, at every Q point from qmin to qmax, the sum over all atom pairs of f_i f_j exp(-sigma^2 Q^2/2) sin(Q r)/r, normalized by the average scattering factor and the total occupancy; terms left out because of the Debye precision change each point by at most the precision per bond.", "quantifier": "all structures, Q ranges, precisions, peak widths and scattering factors", "why_tests_cant": "All structures and Q values.", "anchors": ["src/diffpy/srreal/BaseDebyeSum.cpp: addPairContribution, getF, cacheStructureData", "src/diffpy/srreal/DebyePDFCalculator.cpp: sfSiteAtQ"]}
{"id": "C57", "title": "Range and Q step of a Debye PDF evaluation", "statement": "An evaluation of the Debye PDF calculator visits bonds in the requested r range extended by the termination ripples and peak tails (never beyond maxextension) and uses a Q step small enough for the longest of these distances; evaluating again changes nothing, and the range is determined by the current parameters and the structure.", "quantifier": "all parameters, structures and histories of setter calls and evaluations", "why_tests_cant": "Histories of calls.", "anchors": ["src/diffpy/srreal/DebyePDFCalculator.cpp: resetValue, updateQstep, cacheRlimitsData, setQstep, setOptimumQstep, setRmax, setMaxExtension"]}
{"id": "C58", "title": "The Debye PDF is the interpolated sine transform of F(Q)", "statement": "getPDF of the Debye calculator is, at every point of the r grid, the linear interpolation between the nodes pi/Qmaxpadded of the sine transform of F(Q) with the part below qmin removed, times the envelopes, and never reads outside its arrays.", "quantifier": "all F(Q) arrays, Q ranges and steps, r grids and envelopes", "why_tests_cant": "All lengths and grids.", "anchors": ["src/diffpy/srreal/DebyePDFCalculator.cpp: getPDF, getPDFAtQmin, getRDF", "src/diffpy/srreal/PDFUtils.cpp: fftftog"]}
{"id": "C59", "title": "Normalization of the PDF", "statement": "The scattering factor of a site is that of its atom type times the occupancy of that site; getRDF divides the pair sum by N<f>^2, with N the occupancy-weighted number of atoms and <f> their average factor; the slope of the linear baseline is -4 pi times the number density times the weight fraction of the atom pairs that the mask lets through.", "quantifier": "all structures, occupancies, multiplicities, scattering factor tables and reachable masks", "why_tests_cant": "All structures and mask histories.", "anchors": ["src/diffpy/srreal/PDFCalculator.cpp: cacheStructureData, getExtendedRDF, resetValue, sfSite"]}
{"id": "C60", "title": "The RDF and PDF are the pair sums over the atoms", "statement": "After eval of a structure whose range extension fits maxextension, getRDF is at every grid point r that is at least one step above the lower end of the extended range (or any grid point when the range starts at zero) the sum over ordered pairs of atoms (and all lattice translations of a periodic structure) that the mask lets through, of f_i f_j times the peak profile at r - d times r/d, divided by N<f>^2; with the Gaussian profile the deviation is at most the peak precision times the sum of the peak heights; getPDF without a Q window is RDF/r minus 4 pi rho0 r times the active pair fraction, times the envelopes.", "quantifier": "all finite and periodic structures, lattices, masks, peak width models, profiles, r grids and generator histories", "why_tests_cant": "All structures and parameters; infinitely many lattice images.", "anchors": ["src/diffpy/srreal/PDFCalculator.cpp: addPairContribution, getRDF, getPDF, configureBondGenerator, resetValue", "src/diffpy/srreal/PQEvaluator.cpp: PQEvaluatorBasic::updateValue", "src/diffpy/srreal/PeriodicStructureAdapter.cpp: rewindSymmetry, nextposition"]}
{"id": "C61", "title": "The RDF of a crystal with symmetry is that of the full crystal", "statement": "After eval of a crystal given by its asymmetric unit and symmetry operations, getRDF is at every grid point covered by C60 the sum over ordered pairs of all atoms of the infinite crystal with the first atom in one unit cell, as if every equivalent atom had been listed: looking only from one atom of each orbit and multiplying by its multiplicity loses and repeats nothing. The operations form a space group and images of a site that coincide within the precision coincide exactly.", "quantifier": "all lattices, space groups, asymmetric units (also on special positions), masks, widths and r grids", "why_tests_cant": "All space groups and structures; infinitely many images.", "anchors": ["src/diffpy/srreal/CrystalStructureAdapter.cpp: expandLatticeAtom, rewindSymmetry, nextposition, getNextBond", "src/diffpy/srreal/PDFCalculator.cpp: addPairContribution, cacheStructureData", "src/diffpy/srreal/PQEvaluator.cpp: PQEvaluatorBasic::updateValue"]}
{"id": "C62", "title": "Displacement tensors follow the symmetry operations", "statement": "The mean square displacement that a bond of a crystal reports is the sum of the displacements of the two atoms at its ends along the bond, where equivalent atoms have the displacements of the listed atom carried along by the symmetry operation, whatever the order of the operations and the setting of the cell.", "quantifier": "all lattices, space groups, tensors and bonds", "why_tests_cant": "All operations and tensors.", "anchors": ["src/diffpy/srreal/CrystalStructureAdapter.cpp: expandLatticeAtom, Ucartesian1", "src/diffpy/srreal/BaseBondGenerator.cpp: msd, Ucartesian0", "src/diffpy/srreal/Lattice.cpp: cartesianMatrix, fractionalMatrix"]}
{"id": "C63", "title": "Changes of shared components are noticed", "statement": "After a calculator was evaluated, any change of its settings, of the peak width model, scattering factor table or peak profile it holds, or the replacement of such a component, makes the next evaluation recalculate its value, even when the component is shared and the change is made through another calculator or a kept pointer (but not when the reference returned by the non-const getPeakWidthModel is assigned to directly); calls that concern neither the calculator nor its components do not.", "quantifier": "all populations of calculators and shared components, all interleavings of calls", "why_tests_cant": "All histories and sharing patterns.", "anchors": ["src/diffpy/srreal/PDFCalculator.cpp: ticker, setPeakProfile", "src/diffpy/srreal/DebyePDFCalculator.cpp: ticker", "src/diffpy/srreal/PeakWidthModel.cpp: PeakWidthModelOwner", "src/diffpy/srreal/ScatteringFactorTable.cpp: ScatteringFactorTableOwner", "src/diffpy/srreal/EventTicker.cpp: EventTicker"]}
{"id": "C64", "title": "Copies of a calculator are independent", "statement": "A copy of a calculator starts with the state of the original; afterwards calls on either of them do not change the values, settings or later results of the other.", "quantifier": "all calculators, all interleavings of calls on several calculators and of copies", "why_tests_cant": "All interleavings of calls on both objects.", "anchors": ["src/diffpy/srreal/PairQuantity.hpp: PairQuantity (implicit copy), mevaluator", "src/diffpy/srreal/PairQuantity.cpp: setEvaluatorType, setupParallelRun, eval", "src/diffpy/srreal/PQEvaluator.cpp: createPQEvaluator, PQEvaluatorOptimized::updateValue"]}
{"id": "C65", "title": "Saved and reloaded calculators behave like the originals", "statement": "A calculator that is written with serialization_tostring and read back, in the same or another process, has the value and settings of the original, and in any later history of calls it returns what the original would return; in particular a value that was out of date when it was saved is out of date after loading.", "quantifier": "all calculator states, later histories of calls, click counts of the loading process", "why_tests_cant": "All states and histories, two processes.", "anchors": ["src/diffpy/srreal/PairQuantity.hpp: serialize", "src/diffpy/srreal/PQEvaluator.hpp: serialize", "src/diffpy/EventTicker.hpp: save, load", "src/diffpy/serialization.ipp: serialization_tostring, serialization_fromstring"]}
{"id": "C66", "title": "Converted ObjCryst structures", "statement": "The adapter made from an ObjCryst crystal has one atom for each component with a scattering power, in order, with its type, occupancy, fractional coordinates and mean square displacements (B/8pi^2), and as symmetry operations every listed operation with every translation vector and, in a centrosymmetric group, with the inversion, each once; the atoms it stands for are their images. Molecules keep Cartesian coordinates and tensors.", "quantifier": "all ObjCryst crystals (translation vectors listed with zero first, as ObjCryst does) and molecules", "why_tests_cant": "All space groups and components.", "anchors": ["src/diffpy/srreal/ObjCrystStructureAdapter.cpp: createStructureAdapter, fetchSymmetryOperations, getUij"]}
{"id": "C67", "title": "X-ray and electron scattering factors", "statement": "fxrayatq is the sum of five Gaussians in Q/4pi and a constant with the coefficients that the data file lists for the symbol, even in Q and, for coefficients that are not negative, falling from the number of electrons; felectronatq is 0.023934 (Z - f)/stol^2 with Z that number rounded, bounded near Q = 0 when the coefficients are not negative and add up to a whole number; a symbol that is not listed is looked up without isotope prefix and with 1+ or 1- for a single charge, and is unknown with a higher charge; the file is read completely, and a malformed file or a symbol listed twice is an error.", "quantifier": "all symbols, Q values, data files and coefficients", "why_tests_cant": "All real Q, coefficients and files.", "anchors": ["src/diffpy/srreal/scatteringfactordata.cpp: WaasKirfFormula, getWKFormulasSet, findWKFormula, fxrayatq, felectronatq", "src/diffpy/srreal/SFTXray.cpp, SFTElectron.cpp: standardLookup"]}
{"id": "C68", "title": "Neutron scattering lengths", "statement": "bcneutron gives for an isotope (mass number first) or element the value of its row in the data file; an element without a row has the value of the first isotope that is its only natural one or has a half-life in years; n, D and T are the neutron, deuterium and tritium; the charge of an ion does not matter; a symbol listed twice is an error.", "quantifier": "all data files and symbols", "why_tests_cant": "All files and spellings.", "anchors": ["src/diffpy/srreal/scatteringfactordata.cpp: getNeutronBCTable, bcneutron", "src/diffpy/srreal/SFTNeutron.cpp: standardLookup"]}
{"id": "C69", "title": "Rounding of evaluations stays bounded", "statement": "In floating-point arithmetic, whatever the history of calls, the value of a calculator differs from the one exact arithmetic would give in the same history by at most ((1+u)^N - 1) M, with u the unit roundoff and N and M the number and the sum of absolute values of the contributions added and subtracted since the value was last reset; which evaluations are full, fast or fail does not depend on rounding; a BASIC evaluation inherits nothing from earlier ones; merging parallel values adds one rounding per job; the comparison of the CHECK evaluator accepts exactly the results of equal length whose entries differ by at most sqrt(DBL_EPSILON) times the larger of 1 and the saved entry of largest magnitude.", "quantifier": "all histories, roundings with relative error at most u, calculators, numbers of jobs", "why_tests_cant": "All histories and all possible rounding errors.", "anchors": ["src/diffpy/srreal/PQEvaluator.cpp: PQEvaluatorBasic::updateValue, PQEvaluatorOptimized::updateValue, PQEvaluatorCheck::updateValue", "src/diffpy/srreal/PairQuantity.cpp: mergeParallelData", "src/diffpy/mathutils.hpp: eps_eq"]}
{"id": "C70", "title": "The r grid in double precision", "statement": "With limits and step given as doubles the r grid consists of correctly rounded multiples of the step; a lower limit that is a multiple of the step up to the input error starts the grid at that multiple; every multiple of the step that is in the range by more than the rounding error is a grid point and every grid point is in the range up to the tolerance at the lower and a relative rounding error at the upper end.", "quantifier": "all limits and steps above the tolerance, every rounding with relative error at most u, in particular IEEE doubles", "why_tests_cant": "All doubles.", "anchors": ["src/diffpy/srreal/PDFUtils.cpp: pdfutils_rminSteps, pdfutils_rmaxSteps", "src/diffpy/srreal/PDFCalculator.cpp: getRgrid"]}
{"id": "C71", "title": "Results returned by reference", "statement": "The vector, lattice and tensor functions that return a reference to a static object give the mathematically defined result for every nesting of calls when the result is read or copied before the next call of the same function, as long as neither form of the matrix-vector product is applied directly to its own result (or, for the row-vector form, lattice conversions are not applied directly to it) and setLatBase is not given cell vectors of the same lattice that it has already overwritten; the variables of the caller never change.", "quantifier": "all expressions of nested calls of any depth, all sequences of assignments, all lattices and vectors", "why_tests_cant": "Expressions and call sequences are unbounded; aliasing shows only for particular nestings.", "anchors": ["src/diffpy/srreal/R3linalg.hpp: mxvecproduct, floor, distance, inverse", "src/diffpy/srreal/Lattice.cpp: cartesian, fractional, ucvCartesian, ucvFractional, setLatBase, cartesianMatrix, fractionalMatrix", "src/diffpy/srreal/Lattice.hpp: template versions", "src/diffpy/srreal/PDFCalculator.cpp: getQmax"]}
{"id": "C72", "title": "Editing a structure in place is noticed", "statement": "A structure object that is edited between calls is evaluated with the content it has at the time of the call: after any program of evaluations, ticker-clicking configuration changes, evaluator changes and edits of structure objects, eval of an object (or eval() of the object set before) returns the value of a BASIC evaluation of its present content with any evaluator; for classes without fast updates this also holds after failed calls and setStructure. Calls never change the caller's structure objects, and eval() after a failed call uses either the new object or the old one, in agreement with what the calculator is set up for.", "quantifier": "all programs of calls and edits of any number of structure objects, failures at any point", "why_tests_cant": "Programs are unbounded and the object may be changed at any place between calls.", "anchors": ["src/diffpy/srreal/PairQuantity.cpp: eval, setStructure", "src/diffpy/srreal/PQEvaluator.cpp: PQEvaluatorOptimized::updateValue, updateValueCompletely", "src/diffpy/srreal/AtomicStructureAdapter.cpp: clone", "src/diffpy/srreal/BVSCalculator.cpp: addPairContribution"]}
{"id": "C73", "title": "Equality, order and hashing of atoms and structures", "statement": "Two atoms compare equal exactly when neither contains NaN and all their data are the same numbers (0.0 and -0.0 being the same); equal atoms have equal hashes; on atoms without NaN <, <=, >, >= and == are the operators of one total order. Structures compare equal exactly when their atoms, lattice base and symmetry operations do, in order; an object always equals itself. Lattices that compare equal agree in every respect, and crystals that compare equal and have the same symmetry precision have the same multiplicities and visit the same bonds; the precision itself is not compared, so that equal crystals may differ in multiplicity.", "quantifier": "all atoms, lattices and structures of any size, with any double values including NaN, infinities and signed zeros; any hash functions of the standard types", "why_tests_cant": "Quantifies over all values including NaN, over unbounded lists, and over all bonds of the compared structures.", "anchors": ["src/diffpy/srreal/AtomicStructureAdapter.cpp: operator<, operator==, hash_value", "src/diffpy/srreal/R3linalg.hpp: operator==", "src/diffpy/srreal/R3linalg.cpp: hash_value", "src/diffpy/srreal/Lattice.cpp: operator==", "src/diffpy/srreal/PeriodicStructureAdapter.cpp: operator==", "src/diffpy/srreal/CrystalStructureAdapter.cpp: operator=="]}
{"id": "C74", "title": "Objects survive archives", "statement": "Loading the archive of an object into any object of the class succeeds, consumes exactly that archive and gives an object equal to the saved one: structures of all classes and nestings of wrappers, lattices, tables with their custom entries, envelopes, baselines, peak profiles and widths and all calculators with masks, evaluator, value and caches, whatever the target held before. Members that keep the value of the target are only the working lists of an evaluation and the mark of OverlapCalculator that neighbor lists are built; the evaluator forgets which evaluation it used last; event tickers agree unless the clock of the process is behind that of the archive. Saving throws exactly when some component has no exported class or the evaluator is CHECK. Every archive that ends early and every archive of a newer class version throws; archives of the earlier versions of bond valence tables and Debye calculators load, the member unknown to them keeps the value of the target.", "quantifier": "all objects, targets, clocks, iteration orders of hash containers, truncation points, class versions", "why_tests_cant": "All objects, hash orders and truncation points; sizes and nestings are unbounded.", "anchors": ["src/diffpy/serialization.ipp: serialization_tostring, serialization_fromstring", "src/diffpy/EventTicker.hpp: save, load", "src/diffpy/srreal/PairQuantity.hpp, PDFCalculator.hpp, DebyePDFCalculator.hpp, BondCalculator.hpp, BVSCalculator.hpp, OverlapCalculator.hpp, PQEvaluator.hpp: serialize", "src/diffpy/srreal/AtomicStructureAdapter.hpp, PeriodicStructureAdapter.hpp, CrystalStructureAdapter.hpp, NoMetaStructureAdapter.hpp, NoSymmetryStructureAdapter.hpp, Lattice.hpp: serialize", "src/diffpy/srreal/PairQuantity.cpp: replacePairQuantityStructure"]}
{"id": "C75", "title": "Data directory", "statement": "datapath(f) gives the data directory, a slash and f (only the directory for an empty f). The directory is the canonical path of DIFFPYRUNTIME without trailing slashes when the variable is set and not empty, otherwise the first existing of the two candidates next to the library; a missing directory raises an error that names it. In a file system that does not change the answer does not depend on earlier calls, successful or failed. In general a directory found for a value of the variable is kept until the variable has another value, a directory found without it is kept for the rest of the program, and a failed search is repeated by the next call.", "quantifier": "all histories of calls, values of the variable, file systems and their changes between and within calls", "why_tests_cant": "Histories and file systems are unbounded, tests set the variable once.", "anchors": ["src/diffpy/runtimepath.cpp: datapath, diffpyruntime, ensureIsDir, isdir"]}
{"id": "C76", "title": "Queries after edits of the structure", "statement": "Directly after an evaluation every result query of OverlapCalculator, BVSCalculator and BondCalculator stays within its arrays. When the structure has been edited in place since then: overlaps, distances, directions, site indices and neighbour sites are those of the evaluation; site types, coordinations, square overlaps, gradients and neighborhoods are safe exactly when the sites of the overlapping bonds (of all bonds for BondCalculator) still exist; bond valence differences exactly when no site has been added. Queries do not influence each other.", "quantifier": "all evaluated states, parallel merges and queries in any order, all later contents of the structure", "why_tests_cant": "All states and edits; an access outside an array often goes unnoticed in a test.", "anchors": ["src/diffpy/srreal/OverlapCalculator.cpp: all result methods, getNeighborIds, executeParallelMerge", "src/diffpy/srreal/BVSCalculator.cpp: bvdiff, bvmsdiff", "src/diffpy/srreal/BondCalculator.cpp: types0, types1", "src/diffpy/srreal/StructureAdapter.hpp: siteIndicesToTypes"]}
{"id": "C77", "title": "Component objects keep their settings", "statement": "An envelope, baseline, peak profile or peak width model made by construction, createByType or create has the default settings of its class, one made by clone those of its source at that moment. From then on each parameter has the number last set for it on that object, whatever is done to other objects; a number set is read back under the same name (peakprecision not below 2^-52); width, uisowidth and bisowidth are three consistent views of one width; names of other classes are rejected without effect. Two objects of one class with equal settings compute the same values and bounds whatever their histories, and the ticker of a profile or width model moves exactly when a parameter changes. All classes are registered under their type (tables of scattering factors also under their radiation type) and no other name, in any order of static initialisation.", "quantifier": "all programs that create, clone and set objects in any order, all numbers, all points of evaluation, all orders of static initialisation", "why_tests_cant": "Programs are unbounded, and the order of static initialisation is fixed by the linker in a test.", "anchors": ["src/diffpy/srreal/ScaleEnvelope.cpp, QResolutionEnvelope.cpp, SphericalShapeEnvelope.cpp, StepCutEnvelope.cpp: create, clone, setters", "src/diffpy/srreal/ZeroBaseline.cpp, LinearBaseline.cpp: create, clone, setSlope", "src/diffpy/srreal/GaussianProfile.cpp, CroppedGaussianProfile.cpp, PeakProfile.cpp: setPrecision", "src/diffpy/srreal/ConstantPeakWidth.cpp, JeongPeakWidth.cpp, DebyeWallerPeakWidth.cpp: setters", "src/diffpy/HasClassRegistry.ipp: registerThisType, aliasType, createByType"]}
{"id": "C78", "title": "A bond generator kept and driven by any sequence of calls", "statement": "For a bond generator that the user keeps, after any sequence of anchor and site selections, limits, begun, abandoned or finished loops and edits of the structure, the next loop (rewind, finished, next) visits exactly the bonds described by the last settings, in the order of the last selection, and ends finished; where earlier loops stopped has no influence. A selection, or a limit with a new value, makes finished() true; the same limit again changes nothing. With sites that exist nothing outside an array is read, and a loop fails exactly when a selected site does not exist (for a plain generator: now; for a periodic one: when it was created). No bond is given before setRmax. The anchor position is taken when the anchor is selected (the origin before that). A periodic generator uses the atoms as they were when it was created, and its lattice points are those for the current limits as long as the lattice is not changed. A crystal generator uses the equivalent positions that the structure has now; at every visited bond Ucartesian1() is the tensor of the equivalent atom at the end of that bond. A new generator is finished until its first rewind().", "quantifier": "all sequences of calls, all positions, selections (with repetitions, subranges, iterators into a user vector), limits and edits; every enumerator of lattice points", "why_tests_cant": "Histories are unbounded; a test runs a few scripts, usually one complete loop per generator.", "anchors": ["src/diffpy/srreal/BaseBondGenerator.cpp: constructor, rewind, next, finished, selectAnchorSite, selectSiteRange, selectSites, setRmin, setRmax, getNextBond, advanceWhileInvalid", "src/diffpy/srreal/PeriodicStructureAdapter.cpp: PeriodicStructureBondGenerator", "src/diffpy/srreal/CrystalStructureAdapter.cpp: CrystalStructureBondGenerator"]}
{"id": "C79", "title": "Editing a structure and the difference reported afterwards", "statement": "insert, append, erase, clear, assign and writes through operator[] put every atom where the container interface says and the returned iterator is at the inserted or following atom. Whatever sequence of such edits leads from one structure to another, a sorted difference is the smallest possible: it lists exactly the atoms that are in one structure and not in the other, counted with multiplicity, and hence at most as many sites as atoms were removed and added. If fewer than (1 - sqrt(1/2)) of the old atoms were removed or changed, the difference allows a fast update, however the sites were shifted; reordering the atoms of a non-empty structure always allows it. After appending only, the difference lists exactly the new sites; after writes only, only sites written to.", "quantifier": "all structures, all finite sequences of edits, every correct (also unstable) sort", "why_tests_cant": "Sequences of edits and sizes of structures are unbounded.", "anchors": ["src/diffpy/srreal/AtomicStructureAdapter.cpp: insert, append, clear, erase, operator[], diff", "src/diffpy/srreal/AtomicStructureAdapter.hpp: insert, assign, at, reserve", "src/diffpy/srreal/StructureDifference.cpp: allowsfastupdate"]}
{"id": "C80", "title": "Structure differences with NaN", "statement": "A coordinate, occupancy or displacement that became NaN (or stopped being NaN) is noticed: atoms of different structures are equal exactly when their values are equal and none is NaN, a side-by-side difference lists every site with NaN and leaves only equal atoms unlisted, and a sorted difference leaves unlisted only atoms that are equal. Without NaN the difference is the one of C09 and C10.", "quantifier": "all structures with numbers that may be NaN, every sort that reorders its argument", "why_tests_cant": "NaN breaks the order that std::sort and std::set_symmetric_difference need; tests use finite numbers.", "anchors": ["src/diffpy/srreal/AtomicStructureAdapter.cpp: operator<, operator==, diff", "src/diffpy/srreal/R3linalg.hpp: operator=="]}
{"id": "C81", "title": "Numbers in data files and the standard bond valence table", "statement": "In the text data files a word that is the decimal text of an int is read as that int, a word that is the text of a number as the double nearest to it, and other words, values outside the type and missing words are errors. A CIF line with two atoms, valences, Ro, B and reference gives exactly that parameter, with the atom of larger valence first; any other line throws and changes nothing. The standard bond valence table has exactly the parameters on the data lines of the file (the first one for equal atoms and valences), and lookup finds each of them unless a custom one was set. A file that cannot be read is an error on every use.", "quantifier": "all texts, layouts with any header, comments, white space, signs and exponents; all sequences of calls", "why_tests_cant": "Files and lines are unbounded and tests read one file.", "anchors": ["src/diffpy/srreal/BVParam.cpp: setFromCifLine", "src/diffpy/srreal/BVParametersTable.cpp: getStandardSetOfBVParam, lookup", "src/diffpy/srreal/scatteringfactordata.cpp: getElectronNumberTable, getWKFormulasSet, getNeutronBCTable", "src/diffpy/runtimepath.cpp: LineReader"]}
{"id": "C82", "title": "Bond valence sums end to end", "statement": "After eval of a finite structure the value of a site is the sum of the valences of its bonds with all atoms closer than getRmaxUsed(), times their occupancies, with the sign of its own valence; for a periodic structure the sum runs over all lattice images of all atoms; for a crystal over all equivalent positions and their lattice images (fails when multiplicities differ: neighbours of a later site j are weighted by multiplicity of the site / multiplicity of j). The lower limit rmin plays no part, each bond that rmax admits and getRmaxUsed() leaves out would add less than the precision times its occupancy.", "quantifier": "all structures, lattices, space groups, parameter tables, masks and limits", "why_tests_cant": "Structures and cells are unbounded and tests compare sums for a few crystals.", "anchors": ["src/diffpy/srreal/BVSCalculator.cpp: value, addPairContribution, getRmaxUsed", "src/diffpy/srreal/PairQuantity.cpp: eval", "src/diffpy/srreal/PairCounter.cpp", "src/diffpy/srreal/CrystalStructureAdapter.cpp", "src/diffpy/srreal/PeriodicStructureAdapter.cpp"]}
{"id": "C83", "title": "Overlaps end to end", "statement": "After eval of a finite structure, a periodic structure or a crystal: siteSquareOverlaps of a site is half of the sum, over all atoms of the infinite structure in range, of the squares of the overlaps times the occupancy of the other atom; coordinations counts the overlapping atoms with their occupancies, coordinationByTypes separates them by atom type, getNeighborSites lists the sites with an overlapping atom; totalSquareOverlap counts every pair of atoms of the cell once; flipDiffTotal(i, j) is the change of that total when the atoms exchange radii; neighborhoods() are the connected components of the overlap graph. The limit getRmaxUsed() never hides an overlap. gradients() is the derivative of the total with respect to the position of an atom and all its images (false with partial occupancies, and for crystals, where contributions of equivalent atoms are added up without turning them back).", "quantifier": "all structures, lattices, space groups, radii, symmetric masks and limits", "why_tests_cant": "Structures and cells are unbounded and tests compare values for a few crystals.", "anchors": ["src/diffpy/srreal/OverlapCalculator.cpp: siteSquareOverlaps, totalSquareOverlap, flipDiffTotal, gradients, getNeighborSites, coordinations, coordinationByTypes, neighborhoods, getRmaxUsed, addPairContribution", "src/diffpy/srreal/PairQuantity.cpp: eval", "src/diffpy/srreal/CrystalStructureAdapter.cpp", "src/diffpy/srreal/PeriodicStructureAdapter.cpp"]}
{"id": "C84", "title": "Bond lists end to end", "statement": "After a complete evaluation of a finite structure, a periodic structure or a crystal, in one process or merged from two or more, BondCalculator lists every bond from an atom of the structure to an atom of the infinite structure (all lattice images, all equivalent positions) whose length is between rmin and rmax, that the mask allows and that lies in one of the cones, exactly once, and nothing else, sorted by distance; distances, directions, sites0 and sites1 describe the same bond at the same index; without cones the bonds of finite and periodic structures are listed from both ends.", "quantifier": "all structures, lattices, space groups, masks, filters, limits, previous contents and numbers of jobs", "why_tests_cant": "Structures and cells are unbounded and tests list the bonds of a few crystals.", "anchors": ["src/diffpy/srreal/BondCalculator.cpp: distances, directions, sites0, sites1, filterCone, addPairContribution, finishValue", "src/diffpy/srreal/PairQuantity.cpp: eval", "src/diffpy/srreal/CrystalStructureAdapter.cpp", "src/diffpy/srreal/PeriodicStructureAdapter.cpp"]}
{"id": "C85", "title": "Debye sums end to end", "statement": "getF() of DebyePDFCalculator after eval of a finite structure, a periodic structure or a crystal is at each point Q of the grid the Debye sum over all pairs of atoms of the infinite structure in the extended range, f_i f_j exp(-w^2 Q^2 / 2) sin(Q d) / d, with multiplicities, divided by the number of atoms times the square of the mean factor; what the Debye-Waller cut-off leaves out is at most the precision times the number of bonds per atom (nothing with a negative precision). Holds for every symmetric mask, for widths that depend on distance or on the displacement tensors of a crystal. Fails where atoms of one type have different occupancies (C44) and where factors grow with Q (C56).", "quantifier": "all structures, lattices, space groups, factors, widths, masks, limits and precisions", "why_tests_cant": "Structures and grids are unbounded; the tests compare a few curves.", "anchors": ["src/diffpy/srreal/DebyePDFCalculator.cpp: getF, eval", "src/diffpy/srreal/BaseDebyeSum.cpp: setupPairScale, addPairContribution, resetValue, getF, updateScatteringFactors", "src/diffpy/srreal/PairQuantity.cpp: eval", "src/diffpy/srreal/CrystalStructureAdapter.cpp", "src/diffpy/srreal/PeriodicStructureAdapter.cpp"]}
{"id": "C86", "title": "RDF after any history of evaluations", "statement": "After any sequence of eval, setStructure, configuration and evaluator calls, getRDF() of PDFCalculator after eval(stru) is at each grid point the pair sum over the atoms of one cell and all atoms of the infinite structure, as it would be for a new calculator: f_i f_j times the peak of the bond, with multiplicities, divided by N <f>^2; fast updates that move the limits of the calculation between structures, reuse the previous values or match atoms in a different order change nothing. The same holds when the values come from parallel jobs that went through the same history, merged in any order. When termination ripples and peak tails together exceed maxextension, the sum is over the bonds with lengths in the r range extended by maxextension. The structures are of one class (all finite, all periodic or all crystals); points within one step of the end of the range extended by the ripples are excluded for profiles that do not vanish at their bounds, and the first step unless the range starts at zero.", "quantifier": "all structures of one class, lattices, space groups, factors, profiles, widths, masks, ranges, histories and numbers of jobs", "why_tests_cant": "Histories and structures are unbounded; the tests make a few updates in a row.", "anchors": ["src/diffpy/srreal/PDFCalculator.cpp: getRDF, resetValue, addPairContribution, stashPartialValue, restorePartialValue, cacheRlimitsData, cacheStructureData, configureBondGenerator", "src/diffpy/srreal/PQEvaluator.cpp: updateValue", "src/diffpy/srreal/PairQuantity.cpp: eval, setStructure, mergeParallelData"]}
{"id": "C87", "title": "F(Q) after any history of evaluations", "statement": "After any sequence of eval, setStructure, configuration and evaluator calls, getF() of DebyePDFCalculator after eval(stru) is the F(Q) of that structure that a new calculator with the same parameters would give, exactly, and hence within the precision the Debye sum over all pairs of atoms of the infinite structure (C85); the same holds when the values come from parallel jobs that went through the same history, merged in any order. It holds where a change of the calculated range with the structure comes with a change of the Q step (optimum Q step, lower limit within the extension) and for sites of equal multiplicity or without cut-off; otherwise fast updates give a different F(Q): the range follows the peak widths of the structure without clicking the ticker.", "quantifier": "all structures of one class, lattices, space groups, factors, widths, masks, ranges, histories and numbers of jobs", "why_tests_cant": "Histories and structures are unbounded; the tests make a few updates in a row with one Q step.", "anchors": ["src/diffpy/srreal/DebyePDFCalculator.cpp: getF, eval, resetValue, updateQstep, cacheRlimitsData, configureBondGenerator", "src/diffpy/srreal/BaseDebyeSum.cpp: addPairContribution, resetValue, stashPartialValue, restorePartialValue, cacheStructureData", "src/diffpy/srreal/PQEvaluator.cpp: updateValue", "src/diffpy/srreal/PairQuantity.cpp: eval, setStructure, mergeParallelData"]}
{"id": "C88", "title": "G(r) and F(Q) after any history of evaluations", "statement": "After any sequence of eval, setStructure, setBaseline, configuration and evaluator calls, getF() of PDFCalculator after eval(stru) is the sine transform over the extended r range (by the ripples, reduced in proportion when ripples and peak tails exceed maxextension) of RDF(r)/r plus baseline of that structure, on the multiples below Qmax of the Q step given by the range, and getPDF() is on the r grid the inverse transform of the part of F with qmin <= Q < Qmax, times the envelopes. RDF is the sum over all pairs of the infinite structure (C86), the linear baseline is -4 pi r times the number density times the fraction of pairs let through by the mask, whatever slope was set or left by earlier structures, other baselines are added as they are. The same holds when the values come from parallel jobs that went through the same history, merged in any order.", "quantifier": "all structures, lattices, space groups, factors, widths, profiles, envelopes, baselines, masks, r and Q ranges, histories and numbers of jobs", "why_tests_cant": "Histories and structures are unbounded; the tests compare G(r) of a few structures with reference files.", "anchors": ["src/diffpy/srreal/PDFCalculator.cpp: getPDF, getF, getExtendedPDF, getExtendedF, getExtendedRDFperR, resetValue, setBaseline, addPairContribution", "src/diffpy/srreal/PDFUtils.cpp: fftftog, fftgtof", "src/diffpy/srreal/LinearBaseline.cpp: operator()", "src/diffpy/srreal/PQEvaluator.cpp: updateValue", "src/diffpy/srreal/PairQuantity.cpp: eval, setStructure, mergeParallelData", "src/diffpy/srreal/StructureAdapter.cpp: totalOccupancy", "src/diffpy/srreal/PeriodicStructureAdapter.cpp: numberDensity"]}
{"id": "C89", "title": "G(r) of the Debye calculator after any history of evaluations", "statement": "After any sequence of eval, setStructure, configuration and evaluator calls, getPDF() of DebyePDFCalculator after eval(stru) is at each point of the r grid the sine transform of the Debye sum of that structure (C85) between Qmin and Qmax, interpolated linearly at a spacing not above the r step, times the envelopes, within the error bound that follows from the precision of the Debye sum; getRDFperR() and getRDF() are that for Qmin = 0 without envelopes, times r for the latter. A calculator that merged the values of parallel jobs has exactly the results of a new calculator. It holds under the conditions of C87 and when the calculated range extends by a step beyond rmax (C58).", "quantifier": "all structures, lattices, space groups, factors, widths, masks, envelopes, ranges, Qmin, histories and numbers of jobs", "why_tests_cant": "Histories and structures are unbounded; the tests compare a few PDFs with those of PDFCalculator.", "anchors": ["src/diffpy/srreal/DebyePDFCalculator.cpp: getPDF, getRDF, getRDFperR, getPDFAtQmin, resetValue, updateQstep, cacheRlimitsData", "src/diffpy/srreal/BaseDebyeSum.cpp: getF, addPairContribution, cacheStructureData", "src/diffpy/srreal/PDFUtils.cpp: fftftog", "src/diffpy/srreal/PDFEnvelope.cpp: applyEnvelopes", "src/diffpy/srreal/PQEvaluator.cpp: updateValue"]}
{"id": "C90", "title": "RDF and PDF with the peak widths and profiles of the library", "statement": "With ConstantPeakWidth, DebyeWallerPeakWidth or JeongPeakWidth and the Gaussian or cropped Gaussian profile, after any sequence of eval, setStructure, evaluator and configuration calls (range, Qmax, extension, width model and its parameters, profile and its precision, factors, masks), the RDF after eval(stru) is the sum over the atoms of one cell and all atoms of normal distributions around the bond lengths, with the full width at half maximum sqrt(8 ln 2)*sigma, where sigma^2 is the sum of the mean square displacements of the two atoms along the bond, times 1 - delta1/r - delta2/r^2 for Jeong; cropped peaks are cut at the precision and have area one. G(r) and F(Q) follow from it. No peak reaches beyond the range that the calculator extends for peak tails.", "quantifier": "all structures, lattices, space groups, displacements, width models, profiles, precisions, ranges and histories", "why_tests_cant": "Structures, bonds and histories are unbounded; the tests compare a few peaks.", "anchors": ["src/diffpy/srreal/PDFCalculator.cpp: addPairContribution, extFromPeakTails, resetValue, cacheRlimitsData, ticker, setPeakProfile, setPeakProfileByType", "src/diffpy/srreal/DebyeWallerPeakWidth.cpp: calculate, maxWidth", "src/diffpy/srreal/JeongPeakWidth.cpp: calculate, maxWidth", "src/diffpy/srreal/ConstantPeakWidth.cpp: calculate, maxWidth", "src/diffpy/srreal/GaussianProfile.cpp", "src/diffpy/srreal/CroppedGaussianProfile.cpp", "src/diffpy/srreal/BaseBondGenerator.cpp: msd", "src/diffpy/srreal/CrystalStructureAdapter.cpp: Ucartesian1"]}
{"id": "C91", "title": "F(Q) and G(r) of DebyePDFCalculator with the peak widths of the library", "statement": "With ConstantPeakWidth, DebyeWallerPeakWidth or JeongPeakWidth and the optimum Q step, after any sequence of eval and configuration calls (Qmin, Qmax, Q step, precision, r range, extension, width model and its parameters, factors, masks, also calls that throw), F(Q) after eval(stru) is within the precision the Debye sum over the atoms of one cell with all atoms in range, f f' exp(-sigma^2 Q^2/2) sin(Q r)/r for each pair, where sigma^2 is the sum of the mean square displacements of the two atoms along the bond (times 1 - delta1/r - delta2/r^2 for Jeong); G(r) follows from it. Value and F(Q) are exactly those of a new calculator, alone or merged from parallel jobs, and the range covers all peaks down to the default precision up to the maximum extension.", "quantifier": "all structures, lattices, space groups, displacements, width models, parameters, histories and numbers of jobs", "why_tests_cant": "Structures, bonds and histories are unbounded; the tests compare a few samples.", "anchors": ["src/diffpy/srreal/DebyePDFCalculator.cpp: extFromPeakTails, cacheRlimitsData, updateQstep, resetValue, ticker, setters", "src/diffpy/srreal/BaseDebyeSum.cpp: addPairContribution, ticker, setters", "src/diffpy/srreal/DebyeWallerPeakWidth.cpp: calculate, maxWidth", "src/diffpy/srreal/JeongPeakWidth.cpp: calculate, maxWidth", "src/diffpy/srreal/ConstantPeakWidth.cpp: calculate, maxWidth", "src/diffpy/srreal/GaussianProfile.cpp: xboundhi", "src/diffpy/srreal/PDFUtils.hpp: DEFAULT_PEAKPRECISION"]}
{"id": "C92", "title": "The mask calls select the pairs of the sums", "statement": "After any sequence of maskAllPairs, invertMask, setTypeMask and setPairMask (for two sites) calls, mixed with evaluations of any structures, an evaluation counts a pair of atoms exactly when the calls say so: by the types of the two atoms when type masks are set (exact pair before all-of-one-type before the default), else by the two sites; the structures evaluated before do not matter. The choice is symmetric, a mask call that clicks no ticker has changed nothing, and so RDF and G(r) of PDFCalculator (with the baseline), and F(Q) of DebyePDFCalculator, after any history are the sums over the selected pairs.", "quantifier": "all sequences of mask and configuration calls, structures, atom types, orders of the hash containers and histories", "why_tests_cant": "Call sequences and structures are unbounded; the tests set a few masks on one structure.", "anchors": ["src/diffpy/srreal/PairQuantity.cpp: maskAllPairs, invertMask, setPairMask, setTypeMask, getPairMask, getTypeMask, hasPairMask, updateMaskData, setStructure", "src/diffpy/srreal/PDFCalculator.cpp: addPairContribution, cacheStructureData", "src/diffpy/srreal/DebyePDFCalculator.cpp: ticker, resetValue", "src/diffpy/srreal/PQEvaluator.cpp: updateValue"]}
{"id": "C93", "title": "Results read after settings have been changed", "statement": "After an evaluation, settings (range, Q range, peak width, profile, scattering factors, masks, baseline, envelopes) may be changed without evaluating again. As long as the step stays and the range asked for lies within the extended range of the evaluation - in particular within its range - getRDF, getPDF and getF of PDFCalculator still are those of the structure under the settings of the evaluation, on the grid of the new range and for the Q range, envelopes and baseline of the time of the call.", "quantifier": "all histories, structures, configurations and sequences of later settings", "why_tests_cant": "Histories and settings are unbounded, and an access outside an array often goes unnoticed in a test.", "anchors": ["src/diffpy/srreal/PDFCalculator.cpp: getPDF, getRDF, getF, getExtendedPDF, getExtendedRDF, getExtendedF, getExtendedRgrid, cutRipplePoints, cacheRlimitsData, setRmin, setRmax, setRstep, setQmax, setMaxExtension"]}
{"id": "C94", "title": "Debye results read after settings have been changed", "statement": "After an evaluation, settings may be changed without evaluating again. As long as Q step and Qmax stay (Qmin, rmin, rstep, precision, peak widths, scattering factors, masks, envelopes may change) and the r grid asked for ends a step before pi/Qstep, getF, getPDF and getRDF of DebyePDFCalculator still are those of the structure under the settings of the evaluation, on the new r grid and for the Qmin and envelopes of the time of the call.", "quantifier": "all histories, structures, configurations and sequences of later settings", "why_tests_cant": "Histories and settings are unbounded, and an access outside an array often goes unnoticed in a test.", "anchors": ["src/diffpy/srreal/BaseDebyeSum.cpp: getF, value, resetValue, sfAverageAtkQ, setQmax, setQstep", "src/diffpy/srreal/DebyePDFCalculator.cpp: getPDF, getRDF, getRDFperR, getPDFAtQmin, updateQstep, setQmin, setQmax, setRmin, setRmax, setRstep"]}
{"id": "C95", "title": "Bond valence sums of a calculator object over its life, and from parallel jobs", "statement": "Whatever was called on a BVSCalculator before (limits, precision, masks, tables set, replaced or edited, evaluations, merges, rejected calls), eval leaves in value() the bond valence sums of the structure under the settings of that moment and the present content of the table in use, in valences() the valences of that table, and getRmaxUsed(), bvdiff(), bvmsdiff(), bvrmsdiff() follow from them. Jobs that share the work, merged in any order into any calculator that was given the structure, lead to the same sums. A call that throws changes nothing, and settings made later do not change results until the next evaluation.", "quantifier": "all histories of calls, tables, structures of the three classes, numbers of jobs and orders of merging", "why_tests_cant": "Histories, structures and numbers of jobs are unbounded; a stale cache shows only after particular sequences of calls.", "anchors": ["src/diffpy/srreal/BVSCalculator.cpp: valences, bvdiff, bvmsdiff, bvrmsdiff, setBVParamTable, setValencePrecision, getRmaxUsed, resetValue, configureBondGenerator, addPairContribution, cacheStructureData, rmaxFromPrecision", "src/diffpy/srreal/PairQuantity.cpp: eval, setStructure, mergeParallelData, setRmin, setRmax, setEvaluatorType, setupParallelRun", "src/diffpy/srreal/PQEvaluator.cpp: PQEvaluatorBasic::updateValue"]}
{"id": "C96", "title": "Overlaps of a calculator object over its life, and from parallel jobs", "statement": "Whatever was called on an OverlapCalculator before (limits, masks, radii tables set, replaced or edited, evaluations, merges, neighbour queries, rejected calls), after eval(stru) the listed overlapping pairs, the square overlaps per site, in total and per atom, the coordinations, the neighbour sites and the coordination by types, the change on exchange of two atoms, the gradients and the neighborhoods are those of the structure with the limits, masks and radii of the moment of the evaluation, also after later settings and any number of queries. Jobs that share the work, merged in any order of arrival into any calculator with the same radii that was given the structure, lead to the same results. A call that throws changes nothing.", "quantifier": "all histories of calls, tables of radii, structures of the three classes, numbers of jobs, orders of merging and sequences of later queries", "why_tests_cant": "Histories, structures and numbers of jobs are unbounded; stale radii or a stale cache of neighbours show only after particular sequences of calls.", "anchors": ["src/diffpy/srreal/OverlapCalculator.cpp: OverlapCalculator, all queries, setAtomRadiiTable, setAtomRadiiTableByType, getRmaxUsed, resetValue, configureBondGenerator, addPairContribution, executeParallelMerge, cacheStructureData, getNeighborIds", "src/diffpy/srreal/AtomRadiiTable.cpp: lookup, setCustom, fromString, resetCustom, resetAll", "src/diffpy/srreal/ConstantRadiiTable.cpp: standardLookup, setDefault", "src/diffpy/srreal/PairQuantity.cpp: eval, setStructure, mergeParallelData, setRmin, setRmax, setEvaluatorType, setupParallelRun"]}
{"id": "C97", "title": "Results do not depend on how the structure is described", "statement": "Two structures that describe the same atoms in space - moved or turned as a whole, with the atoms in another order, in another cell of the same lattice or with atoms moved by lattice vectors, in a multiple cell, or as a crystal with its equivalent positions written out - give the same results when evaluated by calculators in the same configuration: every site has the bond valence sum, expected valence, square overlap, coordination (also by types), neighbours and bonds (BondCalculator) of the site it belongs to; root mean square deviations of valences, mean overlaps, RDF, G(r) and F(Q) are the same, and the total overlap grows with the number of atoms in the cell.", "quantifier": "all pairs of structures of the three classes that describe the same atoms with the same types and occupancies, all histories of both calculators, all tables, width models, profiles and grid points", "why_tests_cant": "Structures, cells and histories are unbounded, and the two descriptions take different paths through the bond generators, so that tests compare only chosen pairs up to rounding.", "anchors": ["src/diffpy/srreal/BVSCalculator.cpp: eval, value, bvmsdiff, bvrmsdiff", "src/diffpy/srreal/OverlapCalculator.cpp: siteSquareOverlaps, totalSquareOverlap, meanSquareOverlap, coordinations, coordinationByTypes, getNeighborSites", "src/diffpy/srreal/PDFCalculator.cpp: getRDF, getPDF, getF", "src/diffpy/srreal/BaseDebyeSum.cpp: getF, resetValue, addPairContribution", "src/diffpy/srreal/BondCalculator.cpp: distances, sites0, sites1", "src/diffpy/srreal/PeriodicStructureAdapter.cpp: bond generator", "src/diffpy/srreal/CrystalStructureAdapter.cpp: bond generator, siteMultiplicity", "src/diffpy/srreal/BaseBondGenerator.cpp: iterateBonds"]}
{"id": "C98", "title": "Partial results add up", "statement": "Calculators that have the same configuration except for masks that divide the pairs of sites among them - one calculator for each pair of atom types, say, with a type mask that allows this pair only, or one for the pairs allowed by a mask and one for the rest - give results that add up to those of the calculator for all the pairs: RDF, G(r) and F(Q), bond valence sums, square overlaps and coordination of each site, total square overlap, and the lists of bonds and distances taken together.", "quantifier": "all structures of the three classes, all histories of the calculators, all finite divisions of the pairs, all tables, width models, profiles and grid points", "why_tests_cant": "Divisions, structures and histories are unbounded; a pair counted in two parts or in none, or an average over the masked pairs only, shows only in some division.", "anchors": ["src/diffpy/srreal/PairQuantity.cpp: setPairMask, setTypeMask, getPairMask", "src/diffpy/srreal/PDFCalculator.cpp: getRDF, getPDF, getF", "src/diffpy/srreal/DebyePDFCalculator.cpp: getF", "src/diffpy/srreal/BVSCalculator.cpp: value", "src/diffpy/srreal/OverlapCalculator.cpp: siteSquareOverlaps, coordinations, totalSquareOverlap, meanSquareOverlap", "src/diffpy/srreal/BondCalculator.cpp: distances, sites0, sites1"]}
{"id": "C99", "title": "Only the total occupancy of every sort of atom matters", "statement": "Two structures with the same cell and symmetry and, for every type, position and displacements, the same total occupancy of the atoms that have them - the atoms listed in another order, an atom replaced by fractional ones at its place, atoms of zero occupancy added - give the same results with calculators of equal configuration whose masks, if any, go by the types of atoms: RDF, G(r) and F(Q), the Debye sum, bond valence sums and overlaps of corresponding sites, and their averages and totals.", "quantifier": "all structures of the three classes, all histories of the calculators, all tables, width models, profiles, type masks and grid points", "why_tests_cant": "Any redistribution of occupancies among atoms of one sort, in any structure, must cancel out; one unweighted sum - an average over sites, a pair counted without the occupancy of one end - shows only with fractional atoms.", "anchors": ["src/diffpy/srreal/PDFCalculator.cpp: addPairContribution, cacheStructureData", "src/diffpy/srreal/DebyePDFCalculator.cpp: addPairContribution", "src/diffpy/srreal/BaseDebyeSum.cpp: cacheStructureData", "src/diffpy/srreal/BVSCalculator.cpp: addPairContribution, bvmsdiff", "src/diffpy/srreal/OverlapCalculator.cpp: siteSquareOverlaps, coordinations, coordinationByTypes, totalSquareOverlap, meanSquareOverlap", "src/diffpy/srreal/StructureAdapter.cpp: totalOccupancy, numberDensity"]}
{"id": "C100", "title": "A wider range does not change the results within the narrower one", "statement": "Changing the range of a calculator and nothing else changes the extent of its results only: the bonds of the narrower range are those of the wider one that lie in it, in the same order; the RDF, and G(r) when Q is not limited, agree at the points of both grids; bond valence sums do not change once the upper limit is beyond the distance where valences fall below the precision, and overlaps once it is not below the largest sum of two radii.", "quantifier": "all structures of the three classes, all histories of the two calculators, all ranges, tables, masks, width models, profiles and grid points", "why_tests_cant": "Which bonds are visited, in which cells, and where the grids begin all change with the range; peaks lost near a limit or points shifted by one step show only for particular ranges and structures.", "anchors": ["src/diffpy/srreal/BondCalculator.cpp: operator(), distances", "src/diffpy/srreal/BaseBondGenerator.cpp: setRmin, setRmax", "src/diffpy/srreal/PDFCalculator.cpp: cacheRlimitsData, getRDF, getPDF, getRgrid", "src/diffpy/srreal/BVSCalculator.cpp: getRmaxUsed", "src/diffpy/srreal/OverlapCalculator.cpp: getRmaxUsed"]}
{"id": "C101", "title": "Results read after the structure has been edited", "statement": "When an overlap or bond valence calculator is asked for results after the structure object was edited, distances, directions, overlaps, radii and valences are those of the last evaluation, while types, occupancies and multiplicities are those of now: types of bond ends, square overlaps, their total, coordination, coordination by types, gradients, differences of valences and their mean square are the corresponding sums over the overlapping bonds of the evaluation, as long as all sites of these bonds still exist; exchanging the radii of two sites changes the total by the bonds that begin at either.", "quantifier": "all histories of evaluations, merges and queries, all present structures, all sites, all orders of the hash set", "why_tests_cant": "The numbers mix two states of the program; whether each factor comes from the right one shows only when the structure differs in that one attribute between evaluation and query, at one end of the bond.", "anchors": ["src/diffpy/srreal/OverlapCalculator.cpp: overlaps, distances, directions, sites0, sites1, types0, types1, siteSquareOverlaps, totalSquareOverlap, flipDiffTotal, gradients, getNeighborSites, coordinations, coordinationByTypes, suboverlap, subvalue", "src/diffpy/srreal/BVSCalculator.cpp: bvdiff, bvmsdiff", "src/diffpy/srreal/BondCalculator.cpp: types0, types1"]}
{"id": "C102", "title": "A pair counter after any history of calls", "statement": "A PairCounter that has been asked, in any order, for other limits, masks, structures, evaluations, evaluator types, CPU assignments and merges counts in its next evaluation exactly what a new counter with the last accepted settings counts: the pairs of sites, images included, that the masks let through at a distance within the limits, each once; parallel jobs add up to the same number; masks that divide the pairs divide the number; a call that throws changes nothing.", "quantifier": "all histories of calls, all structures of the three kinds, all limits and masks, any number of jobs, all orders of traversal", "why_tests_cant": "What earlier evaluations leave behind shows only after particular histories; that half weights add up to whole pairs depends on symmetry of the distances and of the masks over all pairs.", "anchors": ["src/diffpy/srreal/PairCounter.cpp: PairCounter, addPairContribution", "src/diffpy/srreal/PairCounter.hpp: operator()", "src/diffpy/srreal/PairQuantity.cpp: eval, setStructure, resetValue, configureBondGenerator, setEvaluatorType, setupParallelRun, mergeParallelData"]}
{"id": "C103", "title": "Common factors of occupancies and scattering factors", "statement": "Multiplying all occupancies (or the total of every sort of atom) by one number multiplies RDF, G(r) and F(Q), the bond valence sums, the square overlaps and coordinations of the sites and the mean square overlap by that number, and the total square overlap by its square; multiplying all scattering factors by one number (at each Q one number, for the Debye sum) changes none of these.", "quantifier": "all structures, factors, ranges, profiles and width models, masks by types, and all histories of the calculators", "why_tests_cant": "The factor cancels between the normalization by the average scattering factor, the number of atoms and the sum over pairs, for all structures.", "anchors": ["src/diffpy/srreal/PDFCalculator.cpp: getRDF, getRDFperR, getPDF, getF, cacheStructureData, sfAverage, sfSite", "src/diffpy/srreal/BaseDebyeSum.cpp: getF, sfAverageAtkQ", "src/diffpy/srreal/DebyePDFCalculator.cpp: getF", "src/diffpy/srreal/BVSCalculator.cpp: addPairContribution", "src/diffpy/srreal/OverlapCalculator.cpp: siteSquareOverlaps, totalSquareOverlap, meanSquareOverlap, coordinations, coordinationByTypes"]}
{"id": "C104", "title": "Comparisons with a tolerance and wrapping into the cell, in double precision", "statement": "With the rounding of doubles, equality with a tolerance is symmetric and reflexive and holds between all values from one of two equal ones to the other; less and greater with a tolerance are strict orders and exclude each other. For numbers on a common grid that doubles resolve, exactly one of equal, less and greater holds, as over the reals; elsewhere the answers differ from those over the reals within the rounding errors only. Wrapped fractional coordinates are doubles in the interval from 0 to 1 less the tolerance, never 1; wrapping again, or adding whole cells, changes nothing, not even the last bit; and they equal the fractional part, exactly for coordinates that are not negative, up to one rounding otherwise, unless this is within the tolerance of 1, where they are 0.", "quantifier": "all doubles and tolerances", "why_tests_cant": "Rounding errors show only for particular bit patterns; the domain has 2^128 pairs.", "anchors": ["src/diffpy/mathutils.ipp: eps_eq, eps_gt, eps_lt", "src/diffpy/mathutils.hpp: EpsilonLess, EpsilonEqual", "src/diffpy/srreal/Lattice.cpp: ucvFractional", "src/diffpy/srreal/R3linalg.cpp: floor"]}
{"id": "C105", "title": "Clicks of tickers in several threads", "statement": "When the threads of a program make their changes one after the other (under a lock), or at least no increment of the process-wide counter is interrupted by another thread, whatever the schedule otherwise, the ticker of a finished change is newer than every ticker was when the change began, and no ticker is ahead of the counter. So a calculator compared with it recalculates.", "quantifier": "all schedules of any number of threads and tickers", "why_tests_cant": "Schedules are unbounded in number, and a race shows only in a few of them.", "anchors": ["src/diffpy/EventTicker.cpp: click, updateFrom, gtick"]}
{"id": "C106", "title": "Trigonometry of degrees in double precision", "statement": "With the rounding of doubles, the cosine of every multiple of 60 and 90 degrees, in whatever turn, and the sine of the angles 90 degrees from them, are exact; the cosine is even bit for bit and stays between -1 and 1; at any other angle cosine and sine are as accurate as the cosine of the C library up to the rounding of the angle, with an error that grows with the angle; the arccosine is between 0 and 180 degrees and as accurate as that of the library up to 2^-44 degrees.", "quantifier": "all angles and cosines, and all C libraries of a given accuracy", "why_tests_cant": "The domain has 2^64 doubles, and the library differs from system to system.", "anchors": ["src/diffpy/mathutils.ipp: cosd, sind, acosd"]}
{"id": "C107", "title": "Cells with right angles in double precision", "statement": "With the rounding of doubles, a lattice with three right angles keeps its angles, their sines and cosines, its second and third edges and all zeros exact; Cartesian coordinates are the products of fractional coordinates and edges with relative errors of a few roundings, opposite points stay exactly opposite, and the volume is the rounded product of the edges. With any angles the third edge is exactly along the z axis and the second in the yz plane; without the rounding, base vectors have exactly the given lengths and angles and the volume is their determinant, and the reciprocal edges and angles give the inverse of the metric tensor.", "quantifier": "all edge lengths that are doubles, all points, all C libraries", "why_tests_cant": "Rounding errors show only for some lengths; the domain has 2^192 cells.", "anchors": ["src/diffpy/srreal/Lattice.cpp: setLatPar, cartesian, volume, updateStandardBase, updateMetrics"]}
{"id": "C108", "title": "Lengths, distances and cells from base vectors in double precision", "statement": "With the rounding of doubles and a correctly rounded square root, distances are the same in either direction bit for bit, zero just for equal points, exact for points that differ along one axis (up to the rounding of their difference), and otherwise have a relative error of at most 2^-51. A lattice from base vectors along the axes has exactly their lengths for its edges and exactly right angles.", "quantifier": "all points and base vectors that are doubles", "why_tests_cant": "Rounding errors show only for some coordinates; the domain has 2^384 pairs of points.", "anchors": ["src/diffpy/srreal/R3linalg.hpp: norm, distance, dot", "src/diffpy/srreal/Lattice.cpp: setLatBase"]}
{"id": "C109", "title": "The range of bonds in double precision", "statement": "With the rounding of doubles, a pair of points is visited as a bond exactly when its calculated distance is in the closed range and above the tolerance, in both directions or in none; that the calculation is cut short for a pair with a large component makes no difference. A pair whose real distance is within the range by a relative margin of 2^-50 is a bond, one outside by this margin is not.", "quantifier": "all ranges and all pairs of points", "why_tests_cant": "Rounding errors show only for some coordinates; the domain has 2^512 cases.", "anchors": ["src/diffpy/srreal/BaseBondGenerator.cpp: updateDistance, bondOutOfRange, atSelfPair, advanceWhileInvalid", "src/diffpy/srreal/PeriodicStructureAdapter.cpp: updater1"]}
{"id": "C110", "title": "Fractional coordinates and wrapping in cells with right angles, in double precision", "statement": "In a lattice with right angles and the rounding of doubles, converting Cartesian to fractional coordinates and back, or the other way round, changes every coordinate by at most a relative 2^-51. A point wrapped into the unit cell has every Cartesian coordinate at least 0 and below the length of the base vector, and wrapping moves a coordinate by a whole number of base vectors up to 2^-25 of the edge and 2^-51 of the coordinate.", "quantifier": "all edges and all points", "why_tests_cant": "Rounding errors show only for some coordinates; the domain has 2^384 cases.", "anchors": ["src/diffpy/srreal/Lattice.cpp: setLatPar, cartesian, fractional, ucvFractional, ucvCartesian"]}
{"id": "C111", "title": "Equality and keys of bond-valence parameters", "statement": "Two bond-valence parameters compare equal exactly when they are the same object or neither contains NaN and atoms, valences, constants and reference agree; != is the negation, and equality is symmetric and transitive. As members of a set they are identified by the bond alone: the search by hash finds a parameter exactly when the set has one for the bond. The atom of higher valence comes first, so the order of the atoms in a call matters only when their valences are equal.", "quantifier": "all parameters, with all values of doubles, all sets, all hash functions", "why_tests_cant": "NaN, zeros of both signs and colliding hashes are rare in tests.", "anchors": ["src/diffpy/srreal/BVParam.cpp: BVParam, operator==, operator!=, BondHash, BondEqual", "src/diffpy/srreal/BVParametersTable.hpp: SetOfBVParam"]}
