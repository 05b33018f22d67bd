#!/usr/bin/env python3
"""Writes ../properties.jsonl.  Edit the list P and rerun."""
import json, os
P = []
def p(id, title, statement, quantifier, why, *anchors):
    P.append(dict(id=id, title=title, statement=statement, quantifier=quantifier,
                  why_tests_cant=why, anchors=list(anchors)))
S = "src/diffpy/srreal/"
p("C01", "A click makes a ticker strictly newer than every other ticker",
  "After EventTicker::click() the ticker compares strictly greater than every other ticker's value at that moment and than its own earlier value; updateFrom yields the later of the two values and never moves a ticker back; no ticker is ever later than the process-wide clock.",
  "every sequence of construct / click / updateFrom / copy / load operations over any number of tickers, while the counter does not overflow",
  "The change tracking of every calculator rests on it; histories are unbounded and the interleaving of tickers is arbitrary.",
  "src/diffpy/EventTicker.cpp: EventTicker::click, updateFrom, gtick", "src/diffpy/EventTicker.hpp: load, save")
p("C02", "Loading tickers from an archive is order-safe",
  "Tickers restored from one archive keep their relative order (never invert it), and a restored ticker is never later than the process clock, so the next click is still strictly newer than it.",
  "every archived pair of tickers, archived clock value and process clock value",
  "Depends on the relation of two process clocks, which a test process cannot vary freely.",
  "src/diffpy/EventTicker.hpp: EventTicker::load")
p("C03", "setPairMask is read back, is symmetric and touches no other pair",
  "After setPairMask(i,j,m) with non-negative indices, getPairMask(i,j) = getPairMask(j,i) = m while getPairMask of every other pair is as before; with one negative index exactly the pairs of the other site with the sites of the current structure read m, and with both negative every pair reads m; a mask set for two sites survives any later structure.",
  "every mask state reachable by any sequence of mask calls, all sites i, j and other pairs",
  "The stored set holds exceptions to a default whose meaning flips on invertMask; only a proof covers all histories.",
  S+"PairQuantity.cpp: setPairMask, setPairMaskValue, getPairMask")
p("C04", "invertMask flips every pair; maskAllPairs sets every pair",
  "After invertMask() getPairMask(i,j) is the negation of what it was for all i, j and two inversions restore all answers; after maskAllPairs(m) all pairs and all type pairs read m.",
  "every reachable mask state and every pair of sites and of types",
  "Quantifies over all pairs and histories.",
  S+"PairQuantity.cpp: invertMask, maskAllPairs")
p("C05", "Type masks decide the pair mask after a structure is set",
  "With type masks in use, after the structure is set getPairMask(i,j) = getTypeMask(type of i, type of j) for all sites of the structure, independent of the container's iteration order.",
  "every set of type masks, every assignment of types to sites, every iteration order of the hash containers",
  "Iteration order of the hash map is not controllable by a test, and the number of types/sites is unbounded.",
  S+"PairQuantity.cpp: setTypeMask, getTypeMask, updateMaskData")
p("C06", "Every effective mask change is noticed by the change ticker",
  "If a mask call changes the answer of getPairMask for any pair, the ticker of the calculator is clicked, so that an OPTIMIZED evaluation does not reuse a stale value.",
  "every reachable mask state and every mask call",
  "A stale cache shows only for particular histories.",
  S+"PairQuantity.cpp: setPairMask, setTypeMask, invertMask, maskAllPairs, ticker")
p("C07", "Parallel jobs partition the serial pair contributions",
  "For any ncpu >= 1 the jobs with cpuindex 0..ncpu-1 process every pair contribution of the serial evaluation exactly once, so merging their values equals the serial value.",
  "every structure, mask, ncpu and both chopping modes",
  "Unbounded number of sites, bonds and CPUs; a lost or doubled pair is visible only for particular counts.",
  S+"PQEvaluator.cpp: PQEvaluatorBasic::updateValue, setupParallelRun", S+"PairQuantity.cpp: mergeParallelData, executeParallelMerge")
p("C08", "Half sum with scale 2 equals the full double sum",
  "When a pair contribution does not depend on the bond's orientation the half-loop evaluation (scale 2 off the diagonal) equals the full-sum evaluation.",
  "every structure size, mask and symmetric contribution",
  "Equality of two summation orders over unbounded index sets.",
  S+"PQEvaluator.cpp: PQEvaluatorBasic::updateValue")
p("C09", "Site-by-site structure difference is sound",
  "When diff reports a side-by-side difference, every site index not listed in pop0 (resp. add1) exists in both structures with equal atoms; pop0/add1 are strictly increasing valid indices; equal structures give an empty difference.",
  "every pair of atomic structures of any size",
  "Off-by-one at unequal lengths needs all sizes.",
  S+"AtomicStructureAdapter.cpp: AtomicStructureAdapter::diff", S+"StructureDifference.cpp")
p("C10", "Sorted structure difference is sound",
  "When diff reports a sorted difference, removing pop0 from the first structure and add1 from the second leaves the same multiset of atoms; pop0/add1 are strictly increasing valid indices and minimal: no atom value occurs in both removed and added lists.",
  "every pair of atomic structures with any repetition of atoms",
  "Duplicates and order of atoms are unbounded.",
  S+"AtomicStructureAdapter.cpp: AtomicStructureAdapter::diff")
p("C11", "Fast update equals full evaluation",
  "Starting from the full value of the old structure, the OPTIMIZED removal and addition phases give exactly the full value of the new structure (half-sum and full-sum modes, any mask used with side-by-side differences).",
  "every pair of structures with a sound difference, every symmetric pair contribution, in any commutative group of values",
  "Depends on all combinations of popped, added and unchanged sites.",
  S+"PQEvaluator.cpp: PQEvaluatorOptimized::updateValue")
p("C12", "OPTIMIZED and BASIC calculators return the same value for every call history",
  "In any history of eval, configuration changes and setStructure calls, the value returned by eval of an OPTIMIZED calculator equals the BASIC value for the same structure and configuration.",
  "every finite history of API calls",
  "Cache coherence over unbounded histories.",
  S+"PQEvaluator.cpp: PQEvaluatorOptimized::updateValue", S+"PairQuantity.cpp: eval, setStructure, setEvaluatorType")
p("C13", "A failed evaluation does not poison later ones",
  "If eval throws at any point, the next successful eval on the same calculator still returns the correct value.",
  "every history and every point inside eval at which an exception may be raised",
  "Crash points inside the fast path are not reachable by ordinary unit tests.",
  S+"PQEvaluator.cpp: PQEvaluatorOptimized::updateValue", S+"PairQuantity.cpp: eval, setStructure")
p("C14", "The bond generator visits exactly the bonds in range",
  "For a selected anchor and site range the generator yields, in site order and exactly once, the selected sites whose distance from the anchor is within [rmin, rmax] and not zero, including the early-exit distance shortcut.",
  "every structure, anchor, selection, rmin and rmax",
  "Unbounded sites and real-valued geometry.",
  S+"BaseBondGenerator.cpp: rewind, next, advanceWhileInvalid, updateDistance, bondOutOfRange, atSelfPair, selectAnchorSite, selectSiteRange, selectSites")
p("C15", "Periodic bond generation misses no image and repeats none",
  "For a periodic structure every lattice image of every selected site with distance in [rmin,rmax] is produced exactly once, provided the lattice-point iterator covers the buffered shell.",
  "every lattice, set of sites, anchor, rmin <= rmax",
  "Geometry over the reals: the buffer by the unit-cell diagonal must suffice for all cells.",
  S+"PeriodicStructureAdapter.cpp: PeriodicStructureBondGenerator", S+"Lattice.cpp: ucMaxDiagonalLength")
p("C16", "BondCalculator values are the sorted bonds of the current structure",
  "After every eval of any history the stored bonds are sorted by (distance, site0, site1, direction) and, as a multiset, exactly the bonds of the last structure that pass the filters; fast updates and parallel merges included.",
  "every history of structures with removed/added bond lists",
  "Sorted multiset difference and merge over unbounded lists.",
  S+"BondCalculator.cpp: finishValue, addPairContribution, executeParallelMerge, bmerge helpers, stashPartialValue, restorePartialValue")
p("C17", "Cone filters",
  "A bond passes the directional filter iff no cone is set or some cone contains it; a cone with half-angle >= 180 admits all; a bad cone direction is rejected without changing the filters.",
  "every bond direction and list of cones", "Unbounded cone lists and real directions.",
  S+"BondCalculator.cpp: checkConeFilters, filterCone, filterOff")
p("C18", "Lattice points in a spherical shell",
  "PointsInSphere visits no integer triplet twice, and visits (m,n,o) if and only if the length r of its lattice vector satisfies r < Rmax and either Rmin <= r or (a defect) some o' < o gives a lattice vector of length exactly Rmin; for Rmin <= 0, or when no lattice vector has length Rmin, that is the shell Rmin <= r < Rmax. The same holds for the reflections in Q and in d-spacing.",
  "every non-degenerate lattice and all Rmin, Rmax (positive dmin, dmax)",
  "Reals; exact hits at shell boundaries are measure-zero for random tests.",
  S+"PointsInSphere.cpp: PointsInSphere::next_m, next_n, next_o, rewind, ReflectionsInQminQmax, ReflectionsInDmaxDmin")
p("C19", "flipDiffTotal predicts the effect of swapping two atoms",
  "flipDiffTotal(i,j) equals totalSquareOverlap after exchanging the radii of sites i and j minus totalSquareOverlap before; zero for i=j or equal radii, antisymmetric under performing the swap, symmetric in i and j.",
  "every overlap list and pair of sites", "Sums over unbounded neighbour lists with the (i,j) bond double counted.",
  S+"OverlapCalculator.cpp: flipDiffTotal, suboverlap, totalSquareOverlap, siteSquareOverlaps")
p("C20", "neighborhoods() partitions sites into connected components",
  "The sets returned by neighborhoods() are disjoint and two sites share a set iff they are linked by a chain of overlapping pairs; every site is in one set unless it is masked out and isolated.",
  "every list of overlapping pairs and number of sites",
  "Transitive closure over any graph and processing order.",
  S+"OverlapCalculator.cpp: neighborhoods")
p("C21", "Double attributes behave like a checked map",
  "setDoubleAttr(n,x) then getDoubleAttr(n) gives the set value and leaves other attributes alone; unknown name raises an attribute error, an ambiguous name a logic error, a read-only attribute a read-only error, and a failed call changes nothing.",
  "every tree of attribute-bearing objects, attribute name and call history", "Trees and histories are unbounded.",
  "src/diffpy/Attributes.cpp", "src/diffpy/Attributes.ipp")
p("C22", "Class registry behaves like a map from names and aliases to prototypes",
  "Registered types and aliases resolve to their prototype; registering a taken name or aliasing to a different prototype fails without effect; aliasing is idempotent; deregistering removes the type and all its aliases and nothing else and returns how many names were removed; createByType fails exactly for unknown names. (Registration in the plain registry; ScatteringFactorTable adds an alias in a second step.)",
  "every sequence of registry calls", "Histories unbounded.",
  "src/diffpy/HasClassRegistry.ipp")
p("C23", "Atom radii table: custom overrides and atomic fromString",
  "lookup returns the custom radius if one is set and the standard radius otherwise; resetCustom/resetAll undo; fromString either applies all its entries or, on any malformed entry, none; toString then fromString restores the custom map, each radius rounded to the six significant digits printed, for symbols without blanks, commas and colons.",
  "every table state, string and call history", "Unbounded strings and histories.",
  S+"AtomRadiiTable.cpp")
p("C24", "Bond valence parameters",
  "bondvalenceToDistance inverts bondvalence; table lookup prefers custom exact, standard exact, custom wildcard (cation valence 9), standard wildcard, none; lookup(a0,v0,a1,v1) = lookup(a1,v1,a0,v0).",
  "every table content, atom pair and valences", "Real functions and unbounded tables.",
  S+"BVParam.cpp", S+"BVParametersTable.cpp")
p("C25", "Bond valence sums",
  "value()[i] is the sum of bond valences over all bonds of site i with the sign of the site's valence convention, each bond crediting both ends equally; the cut-off derived from the valence precision drops only bonds below that precision.",
  "every structure and parameter table", "Unbounded sums and real exponentials.",
  S+"BVSCalculator.cpp")
p("C26", "Scattering factor table customisation",
  "lookup uses the custom entry (source symbol and scale) if any, else the standard value; setCustomAs/resetCustom/resetAll behave as map updates and click the ticker exactly when the effective table changes.",
  "every call history and symbol", "Unbounded histories.", S+"ScatteringFactorTable.cpp")
p("C27", "PDF r-grid",
  "The r-grid consists of consecutive integer multiples of rstep, starts at the first multiple not below rmin (up to the equality tolerance) and ends with the last multiple below rmax; the calculation range contains it, starts at or above zero and the extension does not exceed maxextension per the rescaling rule.",
  "all rmin, rmax, rstep and extension widths", "Rounding boundaries over all reals.",
  S+"PDFUtils.cpp", S+"PDFUtils.ipp", S+"PDFCalculator.cpp: cacheRlimitsData, rgridSteps")
p("C28", "PDF partial values survive a change of the calculation range",
  "restorePartialValue puts each stashed value at the same r position in the new range, and new positions read zero.",
  "all old and new ranges with stashed arrays", "All alignments of the two ranges.",
  S+"PDFCalculator.cpp: stashPartialValue, restorePartialValue")
p("C29", "PDF output arrays match the r-grid and are in bounds",
  "When the range has not been changed since the last evaluation, getPDF, getRDF and getRDFperR have exactly one value for each grid point, and internal slices (ripple cut, extended RDF) never leave the arrays.",
  "all parameter settings", "All combinations of rounding.",
  S+"PDFCalculator.cpp: cutRipplePoints, getExtendedRDF, getPDF")
p("C30", "Lattice conversions are mutually inverse and isometric",
  "cartesian(fractional(v)) = v = fractional(cartesian(v)); the lattice dot product, norm and distance of fractional vectors equal the Cartesian ones; base rotation preserves lengths.",
  "all non-degenerate lattices and vectors", "Continuum of lattices.",
  S+"Lattice.cpp", S+"Lattice.hpp")
p("C31", "Unit-cell wrapping",
  "ucvFractional maps each coordinate into [0,1) by an integer shift, up to the documented round-off to 0; it is idempotent; ucvCartesian is a lattice translation of its argument.",
  "all vectors", "Continuum of vectors.", S+"Lattice.hpp: ucvFractional", S+"Lattice.hpp: ucvCartesian")
p("C32", "Rejected lattice base leaves the lattice usable",
  "If setLatBase/setLatPar throws, the lattice still behaves as before the call.",
  "all lattices and rejected arguments", "Exception points inside setters.",
  S+"Lattice.cpp: setLatBase")
p("C33", "The maximal unit-cell diagonal bounds intra-cell distances",
  "Any two points of the closed unit cell are at most ucMaxDiagonalLength apart.",
  "all lattices and pairs of points in the cell", "Continuum.", S+"Lattice.cpp: ucMaxDiagonal, ucMaxDiagonalLength")
p("C34", "Symmetry expansion of crystal sites",
  "The equivalent positions of a site are pairwise distinct modulo lattice translations within the precision, each is an image under some symmetry operation, and every image coincides with one of them; multiplicity is their number and is current after any change of atoms, lattice or operations.",
  "all sets of symmetry operations, positions and histories", "Unbounded operations; cache histories.",
  S+"CrystalStructureAdapter.cpp: expandLatticeAtom, siteMultiplicity, updateSymmetryPositions")
p("C35", "PDF envelopes",
  "The applied envelope is the product over the set of envelope types, one per type (adding replaces), independent of insertion order; removing a type restores; the spherical shape envelope lies in [0,1], is non-increasing and vanishes beyond the diameter; step-cut is 1 up to the cut and 0 after.",
  "all envelope sets, histories, r >= 0", "Continuum and histories.",
  S+"PDFEnvelope.cpp", S+"SphericalShapeEnvelope.cpp", S+"StepCutEnvelope.cpp")
p("C36", "Peak profiles and widths",
  "Gaussian profile is symmetric and non-negative; values outside the bound are below precision relative to the maximum; the cropped profile is zero outside; the width model's maxWidth bounds calculate for every bond in range.",
  "all widths, precisions and r", "Continuum.",
  S+"GaussianProfile.cpp", S+"CroppedGaussianProfile.cpp", S+"JeongPeakWidth.cpp", S+"DebyeWallerPeakWidth.cpp")
p("C37", "Atom symbol parsing",
  "For symbols that contain a letter atomBareSymbol strips exactly the isotope prefix and charge suffix and is idempotent; atomValence reads the signed charge suffix; symbols without charge have valence 0.",
  "all strings", "Unbounded strings.", S+"AtomUtils.cpp")
p("C38", "Parallel merge protocol",
  "mergeParallelData rejects a part of a different size and a surplus part without changing the value; finishValue runs exactly when the last part is merged; the merged value is the element-wise sum independent of the order of arrival.",
  "every ncpu and arrival order", "All permutations of parts.",
  S+"PairQuantity.cpp: mergeParallelData, executeParallelMerge")
p("C39", "Evaluator type switching",
  "setEvaluatorType to an unsupported type throws and leaves the calculator unchanged; switching keeps flags and CPU assignment; the reported type is the last successfully set one.",
  "all calculators and histories", "Histories.", S+"PairQuantity.cpp: setEvaluatorType", S+"PQEvaluator.cpp: createPQEvaluator")
p("C40", "Degree-based trigonometry and tolerance comparison",
  "cosd, sind, acosd, asind agree with the mathematical functions of degree arguments, are exact at multiples of 30/90 degrees; eps_eq, eps_lt, eps_gt are mutually exclusive and exhaustive. On sequences of any lengths EpsilonEqual is equal length and entries within tolerance; EpsilonLess is decided by the first pair of entries that differ by more than the tolerance, or else by the length, and is never true both ways.",
  "all real arguments", "Continuum.", "src/diffpy/mathutils.ipp", "src/diffpy/mathutils.hpp")
p("C41", "Data file line reader",
  "The line reader classifies each line as blank, comment or data, counts lines and yields the words of the line.",
  "all strings", "Unbounded strings.", "src/diffpy/runtimepath.cpp: LineReader")
p("C42", "Structure wrappers",
  "The nometa and nosymmetry wrappers present the same sites as the wrapped structure, wrapping twice equals wrapping once, nosymmetry reports multiplicity 1, zero density and only the bonds between the listed sites, nometa disables the structure's own calculator configuration, in any nesting; the difference of wrapped structures is that of the wrapped ones and sound.",
  "all structures and nestings", "Unbounded nesting.", S+"NoMetaStructureAdapter.cpp", S+"NoSymmetryStructureAdapter.cpp")
p("C43", "Pair counting and occupancy",
  "PairCounter returns the number of unmasked pairs of atoms in range, n(n-1)/2 for n distinct atoms within the default range, from a serial run and from the merged parts of any number of parallel jobs; totalOccupancy is the sum of occupancy times multiplicity and agrees with the expanded structure; the number density does not depend on the choice of supercell.",
  "all n", "All sizes.", S+"PairCounter.cpp", S+"StructureAdapter.cpp: totalOccupancy")
p("C44", "Debye sum scattering factors honour site occupancy",
  "The scattering contribution of a site in the Debye sum is the factor of its type times its own occupancy.",
  "all structures", "All occupancy patterns.", S+"BaseDebyeSum.cpp: cacheStructureData")
p("C45", "Change-tracked setters",
  "Numeric setters (rmin, rmax, qmin, qmax, rstep, ...) validate their argument, leave the object unchanged when they throw and click the ticker whenever the result of an evaluation may change.",
  "all calculators, values and histories", "Histories.", S+"PairQuantity.cpp: setRmin, setRmax", S+"PDFCalculator.cpp", "src/diffpy/validators.hpp")
p("C46", "Crystal bond generation covers all equivalent positions",
  "For a crystal structure with at least one symmetry operation the bond generator yields, for each selected site, each of its symmetry-equivalent positions and each lattice vector, the bond whose length is in [rmin, rmax], exactly once.",
  "all lattices, symmetry operations, positions, ranges", "Every geometry and range.", S+"CrystalStructureAdapter.cpp: CrystalStructureBondGenerator")
p("C47", "The restricted calculation range loses no bond contribution",
  "When the range extension fits maxextension, at every grid point that is at least one step above rmin minus the ripple extension (or when the range starts at zero) the RDF equals the sum of the contributions of all bonds of the structure, although the calculator visits only bonds within an extended range and adds each profile only where it is non-negligible; dropped contributions are bounded by the profile precision.",
  "all ranges, steps, extensions, profiles and bond lists", "Every combination of range, width and bond.",
  S+"PDFCalculator.cpp: addPairContribution, cacheRlimitsData, extFromPeakTails")
p("C48", "Fast update of a PDF gives the RDF of a complete evaluation",
  "After a structure change the RDF from the fast update (stashed value rescaled to the new range, minus removed plus added peaks) equals the RDF of a complete evaluation of the new structure.",
  "all ranges, extensions before and after, profiles, removed and added bonds", "All changes and extensions.",
  S+"PDFCalculator.cpp: stashPartialValue, restorePartialValue, addPairContribution")
p("C49", "Sine Fourier transformations",
  "fftgtof returns the sine transform of the sampled function on a power-of-two Q grid with the stated step; fftftog with the matching step inverts it.",
  "all sample vectors, steps and starting points", "All lengths and values.",
  S+"PDFUtils.cpp / PDFCalculator.cpp: fftgtof, fftftog")
p("C50", "Q-window of the PDF",
  "getPDF and getF access no element outside their arrays, return one value per grid point, keep exactly the Q points with qmin <= Q < qmax and give the direct PDF when the window is full.",
  "all settings accepted by the setters", "All settings.",
  S+"PDFCalculator.cpp: getExtendedPDF, getExtendedF, getF, getQgrid")
p("C51", "Overlap gradients",
  "OverlapCalculator.gradients() is the gradient of totalSquareOverlap() with respect to the Cartesian positions of the atoms.",
  "all structures, positions, radii and occupancies", "A derivative at every geometry.",
  S+"OverlapCalculator.cpp: gradients, totalSquareOverlap, suboverlap")
p("C52", "Saving and loading a calculator keeps its answers",
  "A calculator that is saved to an archive and loaded again answers every query as before.",
  "all query histories before the save", "All histories.",
  S+"OverlapCalculator.hpp: serialize", S+"OverlapCalculator.cpp: getNeighborIds, cacheNeighbors")
p("C53", "Standard data tables",
  "After the electron number table was loaded successfully, every query returns the entry of the file: the number of an element is its Z and the number of an ion is Z minus its charge, under both spellings of the charge; the table stays the same for the rest of the process.",
  "all file contents, symbols and query histories", "All files and histories.",
  S+"scatteringfactordata.cpp: getElectronNumberTable, electronnumber")
p("C54", "Type masks are read back",
  "getTypeMask returns, in both orders of the types, the last mask given by setTypeMask for that pair; a mask for one type and 'all' decides every pair whose first type it is and, unless the first type has its own 'all' mask, every pair whose second type it is; other pairs are not affected; a mask for all types decides every pair.",
  "all mask states, atom types and call sequences", "All histories of mask calls and all type names.",
  S+"PairQuantity.cpp: setTypeMask, getTypeMask")
p("C55", "Structures of different kind are not mixed up by fast updates",
  "After evaluating one structure the OPTIMIZED evaluator gives the correct value for any other structure, also when one is finite, periodic or a crystal with symmetry and the other is not.",
  "all pairs of finite, periodic and crystal structures", "All pairs of classes, lattices and atoms.",
  S+"AtomicStructureAdapter.cpp: diff", S+"PeriodicStructureAdapter.cpp: diff", S+"CrystalStructureAdapter.cpp: diff", S+"PQEvaluator.cpp: PQEvaluatorOptimized::updateValue")
p("C56", "The Debye sum is the Debye formula",
  "getF of the Debye calculator is, at every Q point from qmin to qmax, the sum over all atom pairs of f_i f_j exp(-sigma^2 Q^2/2) sin(Q r)/r, normalized by the average scattering factor and the total occupancy; terms left out because of the Debye precision change each point by at most the precision per bond.",
  "all structures, Q ranges, precisions, peak widths and scattering factors", "All structures and Q values.",
  S+"BaseDebyeSum.cpp: addPairContribution, getF, cacheStructureData", S+"DebyePDFCalculator.cpp: sfSiteAtQ")
p("C57", "Range and Q step of a Debye PDF evaluation",
  "An evaluation of the Debye PDF calculator visits bonds in the requested r range extended by the termination ripples and peak tails (never beyond maxextension) and uses a Q step small enough for the longest of these distances; evaluating again changes nothing, and the range is determined by the current parameters and the structure.",
  "all parameters, structures and histories of setter calls and evaluations", "Histories of calls.",
  S+"DebyePDFCalculator.cpp: resetValue, updateQstep, cacheRlimitsData, setQstep, setOptimumQstep, setRmax, setMaxExtension")
p("C58", "The Debye PDF is the interpolated sine transform of F(Q)",
  "getPDF of the Debye calculator is, at every point of the r grid, the linear interpolation between the nodes pi/Qmaxpadded of the sine transform of F(Q) with the part below qmin removed, times the envelopes, and never reads outside its arrays.",
  "all F(Q) arrays, Q ranges and steps, r grids and envelopes", "All lengths and grids.",
  S+"DebyePDFCalculator.cpp: getPDF, getPDFAtQmin, getRDF", S+"PDFUtils.cpp: fftftog")
p("C59", "Normalization of the PDF",
  "The scattering factor of a site is that of its atom type times the occupancy of that site; getRDF divides the pair sum by N<f>^2, with N the occupancy-weighted number of atoms and <f> their average factor; the slope of the linear baseline is -4 pi times the number density times the weight fraction of the atom pairs that the mask lets through.",
  "all structures, occupancies, multiplicities, scattering factor tables and reachable masks", "All structures and mask histories.",
  S+"PDFCalculator.cpp: cacheStructureData, getExtendedRDF, resetValue, sfSite")
p("C60", "The RDF and PDF are the pair sums over the atoms",
  "After eval of a structure whose range extension fits maxextension, getRDF is at every grid point r that is at least one step above the lower end of the extended range (or any grid point when the range starts at zero) the sum over ordered pairs of atoms (and all lattice translations of a periodic structure) that the mask lets through, of f_i f_j times the peak profile at r - d times r/d, divided by N<f>^2; with the Gaussian profile the deviation is at most the peak precision times the sum of the peak heights; getPDF without a Q window is RDF/r minus 4 pi rho0 r times the active pair fraction, times the envelopes.",
  "all finite and periodic structures, lattices, masks, peak width models, profiles, r grids and generator histories", "All structures and parameters; infinitely many lattice images.",
  S+"PDFCalculator.cpp: addPairContribution, getRDF, getPDF, configureBondGenerator, resetValue", S+"PQEvaluator.cpp: PQEvaluatorBasic::updateValue", S+"PeriodicStructureAdapter.cpp: rewindSymmetry, nextposition")
p("C61", "The RDF of a crystal with symmetry is that of the full crystal",
  "After eval of a crystal given by its asymmetric unit and symmetry operations, getRDF is at every grid point covered by C60 the sum over ordered pairs of all atoms of the infinite crystal with the first atom in one unit cell, as if every equivalent atom had been listed: looking only from one atom of each orbit and multiplying by its multiplicity loses and repeats nothing. The operations form a space group and images of a site that coincide within the precision coincide exactly.",
  "all lattices, space groups, asymmetric units (also on special positions), masks, widths and r grids", "All space groups and structures; infinitely many images.",
  S+"CrystalStructureAdapter.cpp: expandLatticeAtom, rewindSymmetry, nextposition, getNextBond", S+"PDFCalculator.cpp: addPairContribution, cacheStructureData", S+"PQEvaluator.cpp: PQEvaluatorBasic::updateValue")
p("C62", "Displacement tensors follow the symmetry operations",
  "The mean square displacement that a bond of a crystal reports is the sum of the displacements of the two atoms at its ends along the bond, where equivalent atoms have the displacements of the listed atom carried along by the symmetry operation, whatever the order of the operations and the setting of the cell.",
  "all lattices, space groups, tensors and bonds", "All operations and tensors.",
  S+"CrystalStructureAdapter.cpp: expandLatticeAtom, Ucartesian1", S+"BaseBondGenerator.cpp: msd, Ucartesian0", S+"Lattice.cpp: cartesianMatrix, fractionalMatrix")
p("C63", "Changes of shared components are noticed",
  "After a calculator was evaluated, any change of its settings, of the peak width model, scattering factor table or peak profile it holds, or the replacement of such a component, makes the next evaluation recalculate its value, even when the component is shared and the change is made through another calculator or a kept pointer (but not when the reference returned by the non-const getPeakWidthModel is assigned to directly); calls that concern neither the calculator nor its components do not.",
  "all populations of calculators and shared components, all interleavings of calls", "All histories and sharing patterns.",
  S+"PDFCalculator.cpp: ticker, setPeakProfile", S+"DebyePDFCalculator.cpp: ticker", S+"PeakWidthModel.cpp: PeakWidthModelOwner", S+"ScatteringFactorTable.cpp: ScatteringFactorTableOwner", S+"EventTicker.cpp: EventTicker")
p("C64", "Copies of a calculator are independent",
  "A copy of a calculator starts with the state of the original; afterwards calls on either of them do not change the values, settings or later results of the other.",
  "all calculators, all interleavings of calls on several calculators and of copies", "All interleavings of calls on both objects.",
  S+"PairQuantity.hpp: PairQuantity (implicit copy), mevaluator", S+"PairQuantity.cpp: setEvaluatorType, setupParallelRun, eval", S+"PQEvaluator.cpp: createPQEvaluator, PQEvaluatorOptimized::updateValue")
p("C65", "Saved and reloaded calculators behave like the originals",
  "A calculator that is written with serialization_tostring and read back, in the same or another process, has the value and settings of the original, and in any later history of calls it returns what the original would return; in particular a value that was out of date when it was saved is out of date after loading.",
  "all calculator states, later histories of calls, click counts of the loading process", "All states and histories, two processes.",
  "src/diffpy/srreal/PairQuantity.hpp: serialize", "src/diffpy/srreal/PQEvaluator.hpp: serialize", "src/diffpy/EventTicker.hpp: save, load", "src/diffpy/serialization.ipp: serialization_tostring, serialization_fromstring")
p("C66", "Converted ObjCryst structures",
  "The adapter made from an ObjCryst crystal has one atom for each component with a scattering power, in order, with its type, occupancy, fractional coordinates and mean square displacements (B/8pi^2), and as symmetry operations every listed operation with every translation vector and, in a centrosymmetric group, with the inversion, each once; the atoms it stands for are their images. Molecules keep Cartesian coordinates and tensors.",
  "all ObjCryst crystals (translation vectors listed with zero first, as ObjCryst does) and molecules", "All space groups and components.",
  S+"ObjCrystStructureAdapter.cpp: createStructureAdapter, fetchSymmetryOperations, getUij")
p("C67", "X-ray and electron scattering factors",
  "fxrayatq is the sum of five Gaussians in Q/4pi and a constant with the coefficients that the data file lists for the symbol, even in Q and, for coefficients that are not negative, falling from the number of electrons; felectronatq is 0.023934 (Z - f)/stol^2 with Z that number rounded, bounded near Q = 0 when the coefficients are not negative and add up to a whole number; a symbol that is not listed is looked up without isotope prefix and with 1+ or 1- for a single charge, and is unknown with a higher charge; the file is read completely, and a malformed file or a symbol listed twice is an error.",
  "all symbols, Q values, data files and coefficients", "All real Q, coefficients and files.",
  S+"scatteringfactordata.cpp: WaasKirfFormula, getWKFormulasSet, findWKFormula, fxrayatq, felectronatq", S+"SFTXray.cpp, SFTElectron.cpp: standardLookup")
p("C68", "Neutron scattering lengths",
  "bcneutron gives for an isotope (mass number first) or element the value of its row in the data file; an element without a row has the value of the first isotope that is its only natural one or has a half-life in years; n, D and T are the neutron, deuterium and tritium; the charge of an ion does not matter; a symbol listed twice is an error.",
  "all data files and symbols", "All files and spellings.",
  S+"scatteringfactordata.cpp: getNeutronBCTable, bcneutron", S+"SFTNeutron.cpp: standardLookup")
p("C69", "Rounding of evaluations stays bounded",
  "In floating-point arithmetic, whatever the history of calls, the value of a calculator differs from the one exact arithmetic would give in the same history by at most ((1+u)^N - 1) M, with u the unit roundoff and N and M the number and the sum of absolute values of the contributions added and subtracted since the value was last reset; which evaluations are full, fast or fail does not depend on rounding; a BASIC evaluation inherits nothing from earlier ones; merging parallel values adds one rounding per job; the comparison of the CHECK evaluator accepts exactly the results of equal length whose entries differ by at most sqrt(DBL_EPSILON) times the larger of 1 and the saved entry of largest magnitude.",
  "all histories, roundings with relative error at most u, calculators, numbers of jobs", "All histories and all possible rounding errors.",
  S+"PQEvaluator.cpp: PQEvaluatorBasic::updateValue, PQEvaluatorOptimized::updateValue, PQEvaluatorCheck::updateValue", S+"PairQuantity.cpp: mergeParallelData", "src/diffpy/mathutils.hpp: eps_eq")
p("C70", "The r grid in double precision",
  "With limits and step given as doubles the r grid consists of correctly rounded multiples of the step; a lower limit that is a multiple of the step up to the input error starts the grid at that multiple; every multiple of the step that is in the range by more than the rounding error is a grid point and every grid point is in the range up to the tolerance at the lower and a relative rounding error at the upper end.",
  "all limits and steps above the tolerance, every rounding with relative error at most u, in particular IEEE doubles", "All doubles.",
  S+"PDFUtils.cpp: pdfutils_rminSteps, pdfutils_rmaxSteps", S+"PDFCalculator.cpp: getRgrid")
p("C71", "Results returned by reference",
  "The vector, lattice and tensor functions that return a reference to a static object give the mathematically defined result for every nesting of calls when the result is read or copied before the next call of the same function, as long as neither form of the matrix-vector product is applied directly to its own result (or, for the row-vector form, lattice conversions are not applied directly to it) and setLatBase is not given cell vectors of the same lattice that it has already overwritten; the variables of the caller never change.",
  "all expressions of nested calls of any depth, all sequences of assignments, all lattices and vectors", "Expressions and call sequences are unbounded; aliasing shows only for particular nestings.",
  S+"R3linalg.hpp: mxvecproduct, floor, distance, inverse", S+"Lattice.cpp: cartesian, fractional, ucvCartesian, ucvFractional, setLatBase, cartesianMatrix, fractionalMatrix", S+"Lattice.hpp: template versions", S+"PDFCalculator.cpp: getQmax")
p("C72", "Editing a structure in place is noticed",
  "A structure object that is edited between calls is evaluated with the content it has at the time of the call: after any program of evaluations, ticker-clicking configuration changes, evaluator changes and edits of structure objects, eval of an object (or eval() of the object set before) returns the value of a BASIC evaluation of its present content with any evaluator; for classes without fast updates this also holds after failed calls and setStructure. Calls never change the caller's structure objects, and eval() after a failed call uses either the new object or the old one, in agreement with what the calculator is set up for.",
  "all programs of calls and edits of any number of structure objects, failures at any point", "Programs are unbounded and the object may be changed at any place between calls.",
  S+"PairQuantity.cpp: eval, setStructure", S+"PQEvaluator.cpp: PQEvaluatorOptimized::updateValue, updateValueCompletely", S+"AtomicStructureAdapter.cpp: clone", S+"BVSCalculator.cpp: addPairContribution")
p("C73", "Equality, order and hashing of atoms and structures",
  "Two atoms compare equal exactly when neither contains NaN and all their data are the same numbers (0.0 and -0.0 being the same); equal atoms have equal hashes; on atoms without NaN <, <=, >, >= and == are the operators of one total order. Structures compare equal exactly when their atoms, lattice base and symmetry operations do, in order; an object always equals itself. Lattices that compare equal agree in every respect, and crystals that compare equal and have the same symmetry precision have the same multiplicities and visit the same bonds; the precision itself is not compared, so that equal crystals may differ in multiplicity.",
  "all atoms, lattices and structures of any size, with any double values including NaN, infinities and signed zeros; any hash functions of the standard types",
  "Quantifies over all values including NaN, over unbounded lists, and over all bonds of the compared structures.",
  S+"AtomicStructureAdapter.cpp: operator<, operator==, hash_value", S+"R3linalg.hpp: operator==", S+"R3linalg.cpp: hash_value", S+"Lattice.cpp: operator==", S+"PeriodicStructureAdapter.cpp: operator==", S+"CrystalStructureAdapter.cpp: operator==")
p("C74", "Objects survive archives",
  "Loading the archive of an object into any object of the class succeeds, consumes exactly that archive and gives an object equal to the saved one: structures of all classes and nestings of wrappers, lattices, tables with their custom entries, envelopes, baselines, peak profiles and widths and all calculators with masks, evaluator, value and caches, whatever the target held before. Members that keep the value of the target are only the working lists of an evaluation and the mark of OverlapCalculator that neighbor lists are built; the evaluator forgets which evaluation it used last; event tickers agree unless the clock of the process is behind that of the archive. Saving throws exactly when some component has no exported class or the evaluator is CHECK. Every archive that ends early and every archive of a newer class version throws; archives of the earlier versions of bond valence tables and Debye calculators load, the member unknown to them keeps the value of the target.",
  "all objects, targets, clocks, iteration orders of hash containers, truncation points, class versions", "All objects, hash orders and truncation points; sizes and nestings are unbounded.",
  "src/diffpy/serialization.ipp: serialization_tostring, serialization_fromstring", "src/diffpy/EventTicker.hpp: save, load", S+"PairQuantity.hpp, PDFCalculator.hpp, DebyePDFCalculator.hpp, BondCalculator.hpp, BVSCalculator.hpp, OverlapCalculator.hpp, PQEvaluator.hpp: serialize", S+"AtomicStructureAdapter.hpp, PeriodicStructureAdapter.hpp, CrystalStructureAdapter.hpp, NoMetaStructureAdapter.hpp, NoSymmetryStructureAdapter.hpp, Lattice.hpp: serialize", S+"PairQuantity.cpp: replacePairQuantityStructure")
p("C75", "Data directory",
  "datapath(f) gives the data directory, a slash and f (only the directory for an empty f). The directory is the canonical path of DIFFPYRUNTIME without trailing slashes when the variable is set and not empty, otherwise the first existing of the two candidates next to the library; a missing directory raises an error that names it. In a file system that does not change the answer does not depend on earlier calls, successful or failed. In general a directory found for a value of the variable is kept until the variable has another value, a directory found without it is kept for the rest of the program, and a failed search is repeated by the next call.",
  "all histories of calls, values of the variable, file systems and their changes between and within calls", "Histories and file systems are unbounded, tests set the variable once.",
  "src/diffpy/runtimepath.cpp: datapath, diffpyruntime, ensureIsDir, isdir")
p("C76", "Queries after edits of the structure",
  "Directly after an evaluation every result query of OverlapCalculator, BVSCalculator and BondCalculator stays within its arrays. When the structure has been edited in place since then: overlaps, distances, directions, site indices and neighbour sites are those of the evaluation; site types, coordinations, square overlaps, gradients and neighborhoods are safe exactly when the sites of the overlapping bonds (of all bonds for BondCalculator) still exist; bond valence differences exactly when no site has been added. Queries do not influence each other.",
  "all evaluated states, parallel merges and queries in any order, all later contents of the structure", "All states and edits; an access outside an array often goes unnoticed in a test.",
  S+"OverlapCalculator.cpp: all result methods, getNeighborIds, executeParallelMerge", S+"BVSCalculator.cpp: bvdiff, bvmsdiff", S+"BondCalculator.cpp: types0, types1", S+"StructureAdapter.hpp: siteIndicesToTypes")
p("C77", "Component objects keep their settings",
  "An envelope, baseline, peak profile or peak width model made by construction, createByType or create has the default settings of its class, one made by clone those of its source at that moment. From then on each parameter has the number last set for it on that object, whatever is done to other objects; a number set is read back under the same name (peakprecision not below 2^-52); width, uisowidth and bisowidth are three consistent views of one width; names of other classes are rejected without effect. Two objects of one class with equal settings compute the same values and bounds whatever their histories, and the ticker of a profile or width model moves exactly when a parameter changes. All classes are registered under their type (tables of scattering factors also under their radiation type) and no other name, in any order of static initialisation.",
  "all programs that create, clone and set objects in any order, all numbers, all points of evaluation, all orders of static initialisation", "Programs are unbounded, and the order of static initialisation is fixed by the linker in a test.",
  S+"ScaleEnvelope.cpp, QResolutionEnvelope.cpp, SphericalShapeEnvelope.cpp, StepCutEnvelope.cpp: create, clone, setters", S+"ZeroBaseline.cpp, LinearBaseline.cpp: create, clone, setSlope", S+"GaussianProfile.cpp, CroppedGaussianProfile.cpp, PeakProfile.cpp: setPrecision", S+"ConstantPeakWidth.cpp, JeongPeakWidth.cpp, DebyeWallerPeakWidth.cpp: setters", "src/diffpy/HasClassRegistry.ipp: registerThisType, aliasType, createByType")
p("C78", "A bond generator kept and driven by any sequence of calls",
  "For a bond generator that the user keeps, after any sequence of anchor and site selections, limits, begun, abandoned or finished loops and edits of the structure, the next loop (rewind, finished, next) visits exactly the bonds described by the last settings, in the order of the last selection, and ends finished; where earlier loops stopped has no influence. A selection, or a limit with a new value, makes finished() true; the same limit again changes nothing. With sites that exist nothing outside an array is read, and a loop fails exactly when a selected site does not exist (for a plain generator: now; for a periodic one: when it was created). No bond is given before setRmax. The anchor position is taken when the anchor is selected (the origin before that). A periodic generator uses the atoms as they were when it was created, and its lattice points are those for the current limits as long as the lattice is not changed. A crystal generator uses the equivalent positions that the structure has now; at every visited bond Ucartesian1() is the tensor of the equivalent atom at the end of that bond. A new generator is finished until its first rewind().",
  "all sequences of calls, all positions, selections (with repetitions, subranges, iterators into a user vector), limits and edits; every enumerator of lattice points", "Histories are unbounded; a test runs a few scripts, usually one complete loop per generator.",
  S+"BaseBondGenerator.cpp: constructor, rewind, next, finished, selectAnchorSite, selectSiteRange, selectSites, setRmin, setRmax, getNextBond, advanceWhileInvalid", S+"PeriodicStructureAdapter.cpp: PeriodicStructureBondGenerator", S+"CrystalStructureAdapter.cpp: CrystalStructureBondGenerator")
p("C79", "Editing a structure and the difference reported afterwards",
  "insert, append, erase, clear, assign and writes through operator[] put every atom where the container interface says and the returned iterator is at the inserted or following atom. Whatever sequence of such edits leads from one structure to another, a sorted difference is the smallest possible: it lists exactly the atoms that are in one structure and not in the other, counted with multiplicity, and hence at most as many sites as atoms were removed and added. If fewer than (1 - sqrt(1/2)) of the old atoms were removed or changed, the difference allows a fast update, however the sites were shifted; reordering the atoms of a non-empty structure always allows it. After appending only, the difference lists exactly the new sites; after writes only, only sites written to.",
  "all structures, all finite sequences of edits, every correct (also unstable) sort", "Sequences of edits and sizes of structures are unbounded.",
  S+"AtomicStructureAdapter.cpp: insert, append, clear, erase, operator[], diff", S+"AtomicStructureAdapter.hpp: insert, assign, at, reserve", S+"StructureDifference.cpp: allowsfastupdate")
p("C80", "Structure differences with NaN",
  "A coordinate, occupancy or displacement that became NaN (or stopped being NaN) is noticed: atoms of different structures are equal exactly when their values are equal and none is NaN, a side-by-side difference lists every site with NaN and leaves only equal atoms unlisted, and a sorted difference leaves unlisted only atoms that are equal. Without NaN the difference is the one of C09 and C10.",
  "all structures with numbers that may be NaN, every sort that reorders its argument", "NaN breaks the order that std::sort and std::set_symmetric_difference need; tests use finite numbers.",
  S+"AtomicStructureAdapter.cpp: operator<, operator==, diff", S+"R3linalg.hpp: operator==")
p("C81", "Numbers in data files and the standard bond valence table",
  "In the text data files a word that is the decimal text of an int is read as that int, a word that is the text of a number as the double nearest to it, and other words, values outside the type and missing words are errors. A CIF line with two atoms, valences, Ro, B and reference gives exactly that parameter, with the atom of larger valence first; any other line throws and changes nothing. The standard bond valence table has exactly the parameters on the data lines of the file (the first one for equal atoms and valences), and lookup finds each of them unless a custom one was set. A file that cannot be read is an error on every use.",
  "all texts, layouts with any header, comments, white space, signs and exponents; all sequences of calls", "Files and lines are unbounded and tests read one file.",
  S+"BVParam.cpp: setFromCifLine", S+"BVParametersTable.cpp: getStandardSetOfBVParam, lookup", S+"scatteringfactordata.cpp: getElectronNumberTable, getWKFormulasSet, getNeutronBCTable", "src/diffpy/runtimepath.cpp: LineReader")
p("C82", "Bond valence sums end to end",
  "After eval of a finite structure the value of a site is the sum of the valences of its bonds with all atoms closer than getRmaxUsed(), times their occupancies, with the sign of its own valence; for a periodic structure the sum runs over all lattice images of all atoms; for a crystal over all equivalent positions and their lattice images (fails when multiplicities differ: neighbours of a later site j are weighted by multiplicity of the site / multiplicity of j). The lower limit rmin plays no part, each bond that rmax admits and getRmaxUsed() leaves out would add less than the precision times its occupancy.",
  "all structures, lattices, space groups, parameter tables, masks and limits", "Structures and cells are unbounded and tests compare sums for a few crystals.",
  S+"BVSCalculator.cpp: value, addPairContribution, getRmaxUsed", S+"PairQuantity.cpp: eval", S+"PairCounter.cpp", S+"CrystalStructureAdapter.cpp", S+"PeriodicStructureAdapter.cpp")
p("C83", "Overlaps end to end",
  "After eval of a finite structure, a periodic structure or a crystal: siteSquareOverlaps of a site is half of the sum, over all atoms of the infinite structure in range, of the squares of the overlaps times the occupancy of the other atom; coordinations counts the overlapping atoms with their occupancies, coordinationByTypes separates them by atom type, getNeighborSites lists the sites with an overlapping atom; totalSquareOverlap counts every pair of atoms of the cell once; flipDiffTotal(i, j) is the change of that total when the atoms exchange radii; neighborhoods() are the connected components of the overlap graph. The limit getRmaxUsed() never hides an overlap. gradients() is the derivative of the total with respect to the position of an atom and all its images (false with partial occupancies, and for crystals, where contributions of equivalent atoms are added up without turning them back).",
  "all structures, lattices, space groups, radii, symmetric masks and limits", "Structures and cells are unbounded and tests compare values for a few crystals.",
  S+"OverlapCalculator.cpp: siteSquareOverlaps, totalSquareOverlap, flipDiffTotal, gradients, getNeighborSites, coordinations, coordinationByTypes, neighborhoods, getRmaxUsed, addPairContribution", S+"PairQuantity.cpp: eval", S+"CrystalStructureAdapter.cpp", S+"PeriodicStructureAdapter.cpp")
p("C84", "Bond lists end to end",
  "After a complete evaluation of a finite structure, a periodic structure or a crystal, in one process or merged from two or more, BondCalculator lists every bond from an atom of the structure to an atom of the infinite structure (all lattice images, all equivalent positions) whose length is between rmin and rmax, that the mask allows and that lies in one of the cones, exactly once, and nothing else, sorted by distance; distances, directions, sites0 and sites1 describe the same bond at the same index; without cones the bonds of finite and periodic structures are listed from both ends.",
  "all structures, lattices, space groups, masks, filters, limits, previous contents and numbers of jobs", "Structures and cells are unbounded and tests list the bonds of a few crystals.",
  S+"BondCalculator.cpp: distances, directions, sites0, sites1, filterCone, addPairContribution, finishValue", S+"PairQuantity.cpp: eval", S+"CrystalStructureAdapter.cpp", S+"PeriodicStructureAdapter.cpp")
p("C85", "Debye sums end to end",
  "getF() of DebyePDFCalculator after eval of a finite structure, a periodic structure or a crystal is at each point Q of the grid the Debye sum over all pairs of atoms of the infinite structure in the extended range, f_i f_j exp(-w^2 Q^2 / 2) sin(Q d) / d, with multiplicities, divided by the number of atoms times the square of the mean factor; what the Debye-Waller cut-off leaves out is at most the precision times the number of bonds per atom (nothing with a negative precision). Holds for every symmetric mask, for widths that depend on distance or on the displacement tensors of a crystal. Fails where atoms of one type have different occupancies (C44) and where factors grow with Q (C56).",
  "all structures, lattices, space groups, factors, widths, masks, limits and precisions", "Structures and grids are unbounded; the tests compare a few curves.",
  S+"DebyePDFCalculator.cpp: getF, eval", S+"BaseDebyeSum.cpp: setupPairScale, addPairContribution, resetValue, getF, updateScatteringFactors", S+"PairQuantity.cpp: eval", S+"CrystalStructureAdapter.cpp", S+"PeriodicStructureAdapter.cpp")
p("C86", "RDF after any history of evaluations",
  "After any sequence of eval, setStructure, configuration and evaluator calls, getRDF() of PDFCalculator after eval(stru) is at each grid point the pair sum over the atoms of one cell and all atoms of the infinite structure, as it would be for a new calculator: f_i f_j times the peak of the bond, with multiplicities, divided by N <f>^2; fast updates that move the limits of the calculation between structures, reuse the previous values or match atoms in a different order change nothing. The same holds when the values come from parallel jobs that went through the same history, merged in any order. When termination ripples and peak tails together exceed maxextension, the sum is over the bonds with lengths in the r range extended by maxextension. The structures are of one class (all finite, all periodic or all crystals); points within one step of the end of the range extended by the ripples are excluded for profiles that do not vanish at their bounds, and the first step unless the range starts at zero.",
  "all structures of one class, lattices, space groups, factors, profiles, widths, masks, ranges, histories and numbers of jobs", "Histories and structures are unbounded; the tests make a few updates in a row.",
  S+"PDFCalculator.cpp: getRDF, resetValue, addPairContribution, stashPartialValue, restorePartialValue, cacheRlimitsData, cacheStructureData, configureBondGenerator", S+"PQEvaluator.cpp: updateValue", S+"PairQuantity.cpp: eval, setStructure, mergeParallelData")
p("C87", "F(Q) after any history of evaluations",
  "After any sequence of eval, setStructure, configuration and evaluator calls, getF() of DebyePDFCalculator after eval(stru) is the F(Q) of that structure that a new calculator with the same parameters would give, exactly, and hence within the precision the Debye sum over all pairs of atoms of the infinite structure (C85); the same holds when the values come from parallel jobs that went through the same history, merged in any order. It holds where a change of the calculated range with the structure comes with a change of the Q step (optimum Q step, lower limit within the extension) and for sites of equal multiplicity or without cut-off; otherwise fast updates give a different F(Q): the range follows the peak widths of the structure without clicking the ticker.",
  "all structures of one class, lattices, space groups, factors, widths, masks, ranges, histories and numbers of jobs", "Histories and structures are unbounded; the tests make a few updates in a row with one Q step.",
  S+"DebyePDFCalculator.cpp: getF, eval, resetValue, updateQstep, cacheRlimitsData, configureBondGenerator", S+"BaseDebyeSum.cpp: addPairContribution, resetValue, stashPartialValue, restorePartialValue, cacheStructureData", S+"PQEvaluator.cpp: updateValue", S+"PairQuantity.cpp: eval, setStructure, mergeParallelData")
p("C88", "G(r) and F(Q) after any history of evaluations",
  "After any sequence of eval, setStructure, setBaseline, configuration and evaluator calls, getF() of PDFCalculator after eval(stru) is the sine transform over the extended r range (by the ripples, reduced in proportion when ripples and peak tails exceed maxextension) of RDF(r)/r plus baseline of that structure, on the multiples below Qmax of the Q step given by the range, and getPDF() is on the r grid the inverse transform of the part of F with qmin <= Q < Qmax, times the envelopes. RDF is the sum over all pairs of the infinite structure (C86), the linear baseline is -4 pi r times the number density times the fraction of pairs let through by the mask, whatever slope was set or left by earlier structures, other baselines are added as they are. The same holds when the values come from parallel jobs that went through the same history, merged in any order.",
  "all structures, lattices, space groups, factors, widths, profiles, envelopes, baselines, masks, r and Q ranges, histories and numbers of jobs", "Histories and structures are unbounded; the tests compare G(r) of a few structures with reference files.",
  S+"PDFCalculator.cpp: getPDF, getF, getExtendedPDF, getExtendedF, getExtendedRDFperR, resetValue, setBaseline, addPairContribution", S+"PDFUtils.cpp: fftftog, fftgtof", S+"LinearBaseline.cpp: operator()", S+"PQEvaluator.cpp: updateValue", S+"PairQuantity.cpp: eval, setStructure, mergeParallelData", S+"StructureAdapter.cpp: totalOccupancy", S+"PeriodicStructureAdapter.cpp: numberDensity")
p("C89", "G(r) of the Debye calculator after any history of evaluations",
  "After any sequence of eval, setStructure, configuration and evaluator calls, getPDF() of DebyePDFCalculator after eval(stru) is at each point of the r grid the sine transform of the Debye sum of that structure (C85) between Qmin and Qmax, interpolated linearly at a spacing not above the r step, times the envelopes, within the error bound that follows from the precision of the Debye sum; getRDFperR() and getRDF() are that for Qmin = 0 without envelopes, times r for the latter. A calculator that merged the values of parallel jobs has exactly the results of a new calculator. It holds under the conditions of C87 and when the calculated range extends by a step beyond rmax (C58).",
  "all structures, lattices, space groups, factors, widths, masks, envelopes, ranges, Qmin, histories and numbers of jobs", "Histories and structures are unbounded; the tests compare a few PDFs with those of PDFCalculator.",
  S+"DebyePDFCalculator.cpp: getPDF, getRDF, getRDFperR, getPDFAtQmin, resetValue, updateQstep, cacheRlimitsData", S+"BaseDebyeSum.cpp: getF, addPairContribution, cacheStructureData", S+"PDFUtils.cpp: fftftog", S+"PDFEnvelope.cpp: applyEnvelopes", S+"PQEvaluator.cpp: updateValue")
p("C90", "RDF and PDF with the peak widths and profiles of the library",
  "With ConstantPeakWidth, DebyeWallerPeakWidth or JeongPeakWidth and the Gaussian or cropped Gaussian profile, after any sequence of eval, setStructure, evaluator and configuration calls (range, Qmax, extension, width model and its parameters, profile and its precision, factors, masks), the RDF after eval(stru) is the sum over the atoms of one cell and all atoms of normal distributions around the bond lengths, with the full width at half maximum sqrt(8 ln 2)*sigma, where sigma^2 is the sum of the mean square displacements of the two atoms along the bond, times 1 - delta1/r - delta2/r^2 for Jeong; cropped peaks are cut at the precision and have area one. G(r) and F(Q) follow from it. No peak reaches beyond the range that the calculator extends for peak tails.",
  "all structures, lattices, space groups, displacements, width models, profiles, precisions, ranges and histories", "Structures, bonds and histories are unbounded; the tests compare a few peaks.",
  S+"PDFCalculator.cpp: addPairContribution, extFromPeakTails, resetValue, cacheRlimitsData, ticker, setPeakProfile, setPeakProfileByType", S+"DebyeWallerPeakWidth.cpp: calculate, maxWidth", S+"JeongPeakWidth.cpp: calculate, maxWidth", S+"ConstantPeakWidth.cpp: calculate, maxWidth", S+"GaussianProfile.cpp", S+"CroppedGaussianProfile.cpp", S+"BaseBondGenerator.cpp: msd", S+"CrystalStructureAdapter.cpp: Ucartesian1")
p("C91", "F(Q) and G(r) of DebyePDFCalculator with the peak widths of the library",
  "With ConstantPeakWidth, DebyeWallerPeakWidth or JeongPeakWidth and the optimum Q step, after any sequence of eval and configuration calls (Qmin, Qmax, Q step, precision, r range, extension, width model and its parameters, factors, masks, also calls that throw), F(Q) after eval(stru) is within the precision the Debye sum over the atoms of one cell with all atoms in range, f f' exp(-sigma^2 Q^2/2) sin(Q r)/r for each pair, where sigma^2 is the sum of the mean square displacements of the two atoms along the bond (times 1 - delta1/r - delta2/r^2 for Jeong); G(r) follows from it. Value and F(Q) are exactly those of a new calculator, alone or merged from parallel jobs, and the range covers all peaks down to the default precision up to the maximum extension.",
  "all structures, lattices, space groups, displacements, width models, parameters, histories and numbers of jobs", "Structures, bonds and histories are unbounded; the tests compare a few samples.",
  S+"DebyePDFCalculator.cpp: extFromPeakTails, cacheRlimitsData, updateQstep, resetValue, ticker, setters", S+"BaseDebyeSum.cpp: addPairContribution, ticker, setters", S+"DebyeWallerPeakWidth.cpp: calculate, maxWidth", S+"JeongPeakWidth.cpp: calculate, maxWidth", S+"ConstantPeakWidth.cpp: calculate, maxWidth", S+"GaussianProfile.cpp: xboundhi", S+"PDFUtils.hpp: DEFAULT_PEAKPRECISION")
p("C92", "The mask calls select the pairs of the sums",
  "After any sequence of maskAllPairs, invertMask, setTypeMask and setPairMask (for two sites) calls, mixed with evaluations of any structures, an evaluation counts a pair of atoms exactly when the calls say so: by the types of the two atoms when type masks are set (exact pair before all-of-one-type before the default), else by the two sites; the structures evaluated before do not matter. The choice is symmetric, a mask call that clicks no ticker has changed nothing, and so RDF and G(r) of PDFCalculator (with the baseline), and F(Q) of DebyePDFCalculator, after any history are the sums over the selected pairs.",
  "all sequences of mask and configuration calls, structures, atom types, orders of the hash containers and histories", "Call sequences and structures are unbounded; the tests set a few masks on one structure.",
  S+"PairQuantity.cpp: maskAllPairs, invertMask, setPairMask, setTypeMask, getPairMask, getTypeMask, hasPairMask, updateMaskData, setStructure", S+"PDFCalculator.cpp: addPairContribution, cacheStructureData", S+"DebyePDFCalculator.cpp: ticker, resetValue", S+"PQEvaluator.cpp: updateValue")
p("C93", "Results read after settings have been changed",
  "After an evaluation, settings (range, Q range, peak width, profile, scattering factors, masks, baseline, envelopes) may be changed without evaluating again. As long as the step stays and the range asked for lies within the extended range of the evaluation - in particular within its range - getRDF, getPDF and getF of PDFCalculator still are those of the structure under the settings of the evaluation, on the grid of the new range and for the Q range, envelopes and baseline of the time of the call.",
  "all histories, structures, configurations and sequences of later settings", "Histories and settings are unbounded, and an access outside an array often goes unnoticed in a test.",
  S+"PDFCalculator.cpp: getPDF, getRDF, getF, getExtendedPDF, getExtendedRDF, getExtendedF, getExtendedRgrid, cutRipplePoints, cacheRlimitsData, setRmin, setRmax, setRstep, setQmax, setMaxExtension")
p("C94", "Debye results read after settings have been changed",
  "After an evaluation, settings may be changed without evaluating again. As long as Q step and Qmax stay (Qmin, rmin, rstep, precision, peak widths, scattering factors, masks, envelopes may change) and the r grid asked for ends a step before pi/Qstep, getF, getPDF and getRDF of DebyePDFCalculator still are those of the structure under the settings of the evaluation, on the new r grid and for the Qmin and envelopes of the time of the call.",
  "all histories, structures, configurations and sequences of later settings", "Histories and settings are unbounded, and an access outside an array often goes unnoticed in a test.",
  S+"BaseDebyeSum.cpp: getF, value, resetValue, sfAverageAtkQ, setQmax, setQstep", S+"DebyePDFCalculator.cpp: getPDF, getRDF, getRDFperR, getPDFAtQmin, updateQstep, setQmin, setQmax, setRmin, setRmax, setRstep")
p("C95", "Bond valence sums of a calculator object over its life, and from parallel jobs",
  "Whatever was called on a BVSCalculator before (limits, precision, masks, tables set, replaced or edited, evaluations, merges, rejected calls), eval leaves in value() the bond valence sums of the structure under the settings of that moment and the present content of the table in use, in valences() the valences of that table, and getRmaxUsed(), bvdiff(), bvmsdiff(), bvrmsdiff() follow from them. Jobs that share the work, merged in any order into any calculator that was given the structure, lead to the same sums. A call that throws changes nothing, and settings made later do not change results until the next evaluation.",
  "all histories of calls, tables, structures of the three classes, numbers of jobs and orders of merging", "Histories, structures and numbers of jobs are unbounded; a stale cache shows only after particular sequences of calls.",
  S+"BVSCalculator.cpp: valences, bvdiff, bvmsdiff, bvrmsdiff, setBVParamTable, setValencePrecision, getRmaxUsed, resetValue, configureBondGenerator, addPairContribution, cacheStructureData, rmaxFromPrecision", S+"PairQuantity.cpp: eval, setStructure, mergeParallelData, setRmin, setRmax, setEvaluatorType, setupParallelRun", S+"PQEvaluator.cpp: PQEvaluatorBasic::updateValue")
p("C96", "Overlaps of a calculator object over its life, and from parallel jobs",
  "Whatever was called on an OverlapCalculator before (limits, masks, radii tables set, replaced or edited, evaluations, merges, neighbour queries, rejected calls), after eval(stru) the listed overlapping pairs, the square overlaps per site, in total and per atom, the coordinations, the neighbour sites and the coordination by types, the change on exchange of two atoms, the gradients and the neighborhoods are those of the structure with the limits, masks and radii of the moment of the evaluation, also after later settings and any number of queries. Jobs that share the work, merged in any order of arrival into any calculator with the same radii that was given the structure, lead to the same results. A call that throws changes nothing.",
  "all histories of calls, tables of radii, structures of the three classes, numbers of jobs, orders of merging and sequences of later queries", "Histories, structures and numbers of jobs are unbounded; stale radii or a stale cache of neighbours show only after particular sequences of calls.",
  S+"OverlapCalculator.cpp: OverlapCalculator, all queries, setAtomRadiiTable, setAtomRadiiTableByType, getRmaxUsed, resetValue, configureBondGenerator, addPairContribution, executeParallelMerge, cacheStructureData, getNeighborIds", S+"AtomRadiiTable.cpp: lookup, setCustom, fromString, resetCustom, resetAll", S+"ConstantRadiiTable.cpp: standardLookup, setDefault", S+"PairQuantity.cpp: eval, setStructure, mergeParallelData, setRmin, setRmax, setEvaluatorType, setupParallelRun")
p("C97", "Results do not depend on how the structure is described",
  "Two structures that describe the same atoms in space - moved or turned as a whole, with the atoms in another order, in another cell of the same lattice or with atoms moved by lattice vectors, in a multiple cell, or as a crystal with its equivalent positions written out - give the same results when evaluated by calculators in the same configuration: every site has the bond valence sum, expected valence, square overlap, coordination (also by types), neighbours and bonds (BondCalculator) of the site it belongs to; root mean square deviations of valences, mean overlaps, RDF, G(r) and F(Q) are the same, and the total overlap grows with the number of atoms in the cell.",
  "all pairs of structures of the three classes that describe the same atoms with the same types and occupancies, all histories of both calculators, all tables, width models, profiles and grid points", "Structures, cells and histories are unbounded, and the two descriptions take different paths through the bond generators, so that tests compare only chosen pairs up to rounding.",
  S+"BVSCalculator.cpp: eval, value, bvmsdiff, bvrmsdiff", S+"OverlapCalculator.cpp: siteSquareOverlaps, totalSquareOverlap, meanSquareOverlap, coordinations, coordinationByTypes, getNeighborSites", S+"PDFCalculator.cpp: getRDF, getPDF, getF", S+"BaseDebyeSum.cpp: getF, resetValue, addPairContribution", S+"BondCalculator.cpp: distances, sites0, sites1", S+"PeriodicStructureAdapter.cpp: bond generator", S+"CrystalStructureAdapter.cpp: bond generator, siteMultiplicity", S+"BaseBondGenerator.cpp: iterateBonds")
p("C98", "Partial results add up",
  "Calculators that have the same configuration except for masks that divide the pairs of sites among them - one calculator for each pair of atom types, say, with a type mask that allows this pair only, or one for the pairs allowed by a mask and one for the rest - give results that add up to those of the calculator for all the pairs: RDF, G(r) and F(Q), bond valence sums, square overlaps and coordination of each site, total square overlap, and the lists of bonds and distances taken together.",
  "all structures of the three classes, all histories of the calculators, all finite divisions of the pairs, all tables, width models, profiles and grid points", "Divisions, structures and histories are unbounded; a pair counted in two parts or in none, or an average over the masked pairs only, shows only in some division.",
  S+"PairQuantity.cpp: setPairMask, setTypeMask, getPairMask", S+"PDFCalculator.cpp: getRDF, getPDF, getF", S+"DebyePDFCalculator.cpp: getF", S+"BVSCalculator.cpp: value", S+"OverlapCalculator.cpp: siteSquareOverlaps, coordinations, totalSquareOverlap, meanSquareOverlap", S+"BondCalculator.cpp: distances, sites0, sites1")
p("C99", "Only the total occupancy of every sort of atom matters",
  "Two structures with the same cell and symmetry and, for every type, position and displacements, the same total occupancy of the atoms that have them - the atoms listed in another order, an atom replaced by fractional ones at its place, atoms of zero occupancy added - give the same results with calculators of equal configuration whose masks, if any, go by the types of atoms: RDF, G(r) and F(Q), the Debye sum, bond valence sums and overlaps of corresponding sites, and their averages and totals.",
  "all structures of the three classes, all histories of the calculators, all tables, width models, profiles, type masks and grid points", "Any redistribution of occupancies among atoms of one sort, in any structure, must cancel out; one unweighted sum - an average over sites, a pair counted without the occupancy of one end - shows only with fractional atoms.",
  S+"PDFCalculator.cpp: addPairContribution, cacheStructureData", S+"DebyePDFCalculator.cpp: addPairContribution", S+"BaseDebyeSum.cpp: cacheStructureData", S+"BVSCalculator.cpp: addPairContribution, bvmsdiff", S+"OverlapCalculator.cpp: siteSquareOverlaps, coordinations, coordinationByTypes, totalSquareOverlap, meanSquareOverlap", S+"StructureAdapter.cpp: totalOccupancy, numberDensity")
p("C100", "A wider range does not change the results within the narrower one",
  "Changing the range of a calculator and nothing else changes the extent of its results only: the bonds of the narrower range are those of the wider one that lie in it, in the same order; the RDF, and G(r) when Q is not limited, agree at the points of both grids; bond valence sums do not change once the upper limit is beyond the distance where valences fall below the precision, and overlaps once it is not below the largest sum of two radii.",
  "all structures of the three classes, all histories of the two calculators, all ranges, tables, masks, width models, profiles and grid points", "Which bonds are visited, in which cells, and where the grids begin all change with the range; peaks lost near a limit or points shifted by one step show only for particular ranges and structures.",
  S+"BondCalculator.cpp: operator(), distances", S+"BaseBondGenerator.cpp: setRmin, setRmax", S+"PDFCalculator.cpp: cacheRlimitsData, getRDF, getPDF, getRgrid", S+"BVSCalculator.cpp: getRmaxUsed", S+"OverlapCalculator.cpp: getRmaxUsed")
p("C101", "Results read after the structure has been edited",
  "When an overlap or bond valence calculator is asked for results after the structure object was edited, distances, directions, overlaps, radii and valences are those of the last evaluation, while types, occupancies and multiplicities are those of now: types of bond ends, square overlaps, their total, coordination, coordination by types, gradients, differences of valences and their mean square are the corresponding sums over the overlapping bonds of the evaluation, as long as all sites of these bonds still exist; exchanging the radii of two sites changes the total by the bonds that begin at either.",
  "all histories of evaluations, merges and queries, all present structures, all sites, all orders of the hash set", "The numbers mix two states of the program; whether each factor comes from the right one shows only when the structure differs in that one attribute between evaluation and query, at one end of the bond.",
  S+"OverlapCalculator.cpp: overlaps, distances, directions, sites0, sites1, types0, types1, siteSquareOverlaps, totalSquareOverlap, flipDiffTotal, gradients, getNeighborSites, coordinations, coordinationByTypes, suboverlap, subvalue", S+"BVSCalculator.cpp: bvdiff, bvmsdiff", S+"BondCalculator.cpp: types0, types1")
p("C102", "A pair counter after any history of calls",
  "A PairCounter that has been asked, in any order, for other limits, masks, structures, evaluations, evaluator types, CPU assignments and merges counts in its next evaluation exactly what a new counter with the last accepted settings counts: the pairs of sites, images included, that the masks let through at a distance within the limits, each once; parallel jobs add up to the same number; masks that divide the pairs divide the number; a call that throws changes nothing.",
  "all histories of calls, all structures of the three kinds, all limits and masks, any number of jobs, all orders of traversal", "What earlier evaluations leave behind shows only after particular histories; that half weights add up to whole pairs depends on symmetry of the distances and of the masks over all pairs.",
  S+"PairCounter.cpp: PairCounter, addPairContribution", S+"PairCounter.hpp: operator()", S+"PairQuantity.cpp: eval, setStructure, resetValue, configureBondGenerator, setEvaluatorType, setupParallelRun, mergeParallelData")
p("C103", "Common factors of occupancies and scattering factors",
  "Multiplying all occupancies (or the total of every sort of atom) by one number multiplies RDF, G(r) and F(Q), the bond valence sums, the square overlaps and coordinations of the sites and the mean square overlap by that number, and the total square overlap by its square; multiplying all scattering factors by one number (at each Q one number, for the Debye sum) changes none of these.",
  "all structures, factors, ranges, profiles and width models, masks by types, and all histories of the calculators", "The factor cancels between the normalization by the average scattering factor, the number of atoms and the sum over pairs, for all structures.",
  S+"PDFCalculator.cpp: getRDF, getRDFperR, getPDF, getF, cacheStructureData, sfAverage, sfSite", S+"BaseDebyeSum.cpp: getF, sfAverageAtkQ", S+"DebyePDFCalculator.cpp: getF", S+"BVSCalculator.cpp: addPairContribution", S+"OverlapCalculator.cpp: siteSquareOverlaps, totalSquareOverlap, meanSquareOverlap, coordinations, coordinationByTypes")
p("C104", "Comparisons with a tolerance and wrapping into the cell, in double precision",
  "With the rounding of doubles, equality with a tolerance is symmetric and reflexive and holds between all values from one of two equal ones to the other; less and greater with a tolerance are strict orders and exclude each other. For numbers on a common grid that doubles resolve, exactly one of equal, less and greater holds, as over the reals; elsewhere the answers differ from those over the reals within the rounding errors only. Wrapped fractional coordinates are doubles in the interval from 0 to 1 less the tolerance, never 1; wrapping again, or adding whole cells, changes nothing, not even the last bit; and they equal the fractional part, exactly for coordinates that are not negative, up to one rounding otherwise, unless this is within the tolerance of 1, where they are 0.",
  "all doubles and tolerances", "Rounding errors show only for particular bit patterns; the domain has 2^128 pairs.",
  "src/diffpy/mathutils.ipp: eps_eq, eps_gt, eps_lt", "src/diffpy/mathutils.hpp: EpsilonLess, EpsilonEqual", S+"Lattice.cpp: ucvFractional", S+"R3linalg.cpp: floor")
p("C105", "Clicks of tickers in several threads",
  "When the threads of a program make their changes one after the other (under a lock), or at least no increment of the process-wide counter is interrupted by another thread, whatever the schedule otherwise, the ticker of a finished change is newer than every ticker was when the change began, and no ticker is ahead of the counter. So a calculator compared with it recalculates.",
  "all schedules of any number of threads and tickers", "Schedules are unbounded in number, and a race shows only in a few of them.",
  "src/diffpy/EventTicker.cpp: click, updateFrom, gtick")
p("C106", "Trigonometry of degrees in double precision",
  "With the rounding of doubles, the cosine of every multiple of 60 and 90 degrees, in whatever turn, and the sine of the angles 90 degrees from them, are exact; the cosine is even bit for bit and stays between -1 and 1; at any other angle cosine and sine are as accurate as the cosine of the C library up to the rounding of the angle, with an error that grows with the angle; the arccosine is between 0 and 180 degrees and as accurate as that of the library up to 2^-44 degrees.",
  "all angles and cosines, and all C libraries of a given accuracy", "The domain has 2^64 doubles, and the library differs from system to system.",
  "src/diffpy/mathutils.ipp: cosd, sind, acosd")
p("C107", "Cells with right angles in double precision",
  "With the rounding of doubles, a lattice with three right angles keeps its angles, their sines and cosines, its second and third edges and all zeros exact; Cartesian coordinates are the products of fractional coordinates and edges with relative errors of a few roundings, opposite points stay exactly opposite, and the volume is the rounded product of the edges. With any angles the third edge is exactly along the z axis and the second in the yz plane; without the rounding, base vectors have exactly the given lengths and angles and the volume is their determinant, and the reciprocal edges and angles give the inverse of the metric tensor.",
  "all edge lengths that are doubles, all points, all C libraries", "Rounding errors show only for some lengths; the domain has 2^192 cells.",
  S+"Lattice.cpp: setLatPar, cartesian, volume, updateStandardBase, updateMetrics")
p("C108", "Lengths, distances and cells from base vectors in double precision",
  "With the rounding of doubles and a correctly rounded square root, distances are the same in either direction bit for bit, zero just for equal points, exact for points that differ along one axis (up to the rounding of their difference), and otherwise have a relative error of at most 2^-51. A lattice from base vectors along the axes has exactly their lengths for its edges and exactly right angles.",
  "all points and base vectors that are doubles", "Rounding errors show only for some coordinates; the domain has 2^384 pairs of points.",
  S+"R3linalg.hpp: norm, distance, dot", S+"Lattice.cpp: setLatBase")
p("C109", "The range of bonds in double precision",
  "With the rounding of doubles, a pair of points is visited as a bond exactly when its calculated distance is in the closed range and above the tolerance, in both directions or in none; that the calculation is cut short for a pair with a large component makes no difference. A pair whose real distance is within the range by a relative margin of 2^-50 is a bond, one outside by this margin is not.",
  "all ranges and all pairs of points", "Rounding errors show only for some coordinates; the domain has 2^512 cases.",
  S+"BaseBondGenerator.cpp: updateDistance, bondOutOfRange, atSelfPair, advanceWhileInvalid", S+"PeriodicStructureAdapter.cpp: updater1")
p("C110", "Fractional coordinates and wrapping in cells with right angles, in double precision",
  "In a lattice with right angles and the rounding of doubles, converting Cartesian to fractional coordinates and back, or the other way round, changes every coordinate by at most a relative 2^-51. A point wrapped into the unit cell has every Cartesian coordinate at least 0 and below the length of the base vector, and wrapping moves a coordinate by a whole number of base vectors up to 2^-25 of the edge and 2^-51 of the coordinate.",
  "all edges and all points", "Rounding errors show only for some coordinates; the domain has 2^384 cases.",
  S+"Lattice.cpp: setLatPar, cartesian, fractional, ucvFractional, ucvCartesian")
p("C111", "Equality and keys of bond-valence parameters",
  "Two bond-valence parameters compare equal exactly when they are the same object or neither contains NaN and atoms, valences, constants and reference agree; != is the negation, and equality is symmetric and transitive. As members of a set they are identified by the bond alone: the search by hash finds a parameter exactly when the set has one for the bond. The atom of higher valence comes first, so the order of the atoms in a call matters only when their valences are equal.",
  "all parameters, with all values of doubles, all sets, all hash functions", "NaN, zeros of both signs and colliding hashes are rare in tests.",
  S+"BVParam.cpp: BVParam, operator==, operator!=, BondHash, BondEqual", S+"BVParametersTable.hpp: SetOfBVParam")
out = os.path.join(os.path.dirname(os.path.abspath(__file__)), "..", "properties.jsonl")
with open(out, "w") as f:
    for d in P: f.write(json.dumps(d) + "\n")
print(len(P))
