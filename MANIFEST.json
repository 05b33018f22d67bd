{
 "claims": [
  {
   "property": "C01",
   "status": "proved",
   "theorems": [
    "Verif.Ticker.ticker_total_order",
    "Verif.Ticker.ticker_trichotomy",
    "Verif.Ticker.ticker_never_ahead",
    "Verif.Ticker.ticker_click_newest",
    "Verif.Ticker.ticker_updateFrom_max"
   ],
   "note": ""
  },
  {
   "property": "C02",
   "status": "proved",
   "theorems": [
    "Verif.Ticker.ticker_load_not_ahead",
    "Verif.Ticker.ticker_load_order",
    "Verif.Ticker.ticker_load_order_needs_same_clock"
   ],
   "note": "order is preserved for tickers saved with one archived clock; the witness shows it can invert across different archived clocks"
  },
  {
   "property": "C03",
   "status": "proved",
   "theorems": [
    "Verif.Mask.mask_symmetric",
    "Verif.Mask.mask_setPair",
    "Verif.Mask.mask_setSiteAll",
    "Verif.Mask.mask_all",
    "Verif.Mask.mask_hasMask_false",
    "Verif.Mask.mask_setPair_survives_structure",
    "Verif.Mask.mask_siteAll_lost_on_structure"
   ],
   "note": "read-back, symmetry and frame proved for every state; the site-all form is not preserved by setStructure when another site-all mask contradicts it (witness mask_siteAll_lost_on_structure)"
  },
  {
   "property": "C04",
   "status": "proved",
   "theorems": [
    "Verif.Mask.mask_all",
    "Verif.Mask.mask_invert",
    "Verif.Mask.mask_invert_structure"
   ],
   "note": ""
  },
  {
   "property": "C05",
   "status": "partial",
   "theorems": [
    "Verif.Mask.mask_types_partial",
    "Verif.Mask.mask_by_types",
    "Verif.Mask.pairmask_seen",
    "Verif.Mask.getTypeMask_symmetric",
    "Verif.Mask.mask_types_order_dependent",
    "Verif.Mask.getTypeMask_not_symmetric",
    "Verif.Mask.siteAll_in_evaluation"
   ],
   "note": "proved for all type masks without contradicting 'all' masks; false otherwise (witnesses)"
  },
  {
   "property": "C06",
   "status": "partial",
   "theorems": [
    "Verif.Mask.mask_change_clicks_partial",
    "Verif.Mask.quiet_later",
    "Verif.Mask.quiet_data",
    "Verif.Mask.mask_repeat",
    "Verif.Mask.mask_change_without_click",
    "Verif.Mask.typemask_change_without_click"
   ],
   "note": "proved for histories without contradicting 'all' masks; false otherwise (witnesses)"
  },
  {
   "property": "C07",
   "status": "proved",
   "theorems": [
    "Verif.Eval.parallel_basic_partition",
    "Verif.Eval.parallel_fast_partition",
    "Verif.Eval.parallel_merge_value",
    "Verif.Eval.basic_serial_spec"
   ],
   "note": ""
  },
  {
   "property": "C08",
   "status": "proved",
   "theorems": [
    "Verif.Eval.basic_value",
    "Verif.Eval.half_sum_eq_full_sum",
    "Verif.Eval.half_sum_needs_symmetry"
   ],
   "note": ""
  },
  {
   "property": "C11",
   "status": "proved",
   "theorems": [
    "Verif.Eval.fast_update_sideBySide",
    "Verif.Eval.fast_update_sorted",
    "Verif.Eval.fast_update_parallel",
    "Verif.Diff.fast_update_of_diff"
   ],
   "note": ""
  },
  {
   "property": "C09",
   "status": "proved",
   "theorems": [
    "Verif.Diff.diff_sideBySide",
    "Verif.Diff.diff_sideBySide_rest",
    "Verif.Diff.diff_equal",
    "Verif.Diff.atom_order",
    "Verif.Diff.allowsFast_iff_real",
    "Verif.Diff.diff_none",
    "Verif.Diff.diff_crystal"
   ],
   "note": ""
  },
  {
   "property": "C10",
   "status": "proved",
   "theorems": [
    "Verif.Diff.diff_sorted"
   ],
   "note": ""
  },
  {
   "property": "C14",
   "status": "proved",
   "theorems": [
    "Verif.BondGen.base_loop_exact",
    "Verif.BondGen.base_loop_sites",
    "Verif.BondGen.base_loop_data",
    "Verif.BondGen.base_loop_genSpec"
   ],
   "note": "distances over the reals; 'not zero' is the code's tolerance d > 2^-26, so distinct sites closer than that are skipped too"
  },
  {
   "property": "C30",
   "status": "proved",
   "theorems": [
    "Verif.Lattice.cartesian_fractional",
    "Verif.Lattice.lattice_isometry",
    "Verif.Lattice.baserot_isometry",
    "Verif.Lattice.parameters_of_base",
    "Verif.Lattice.cartesianMatrix_fractionalMatrix",
    "Verif.Lattice.setLatPar_self"
   ],
   "note": "for every lattice reachable by successful calls with valid parameters, over the reals"
  },
  {
   "property": "C31",
   "status": "proved",
   "theorems": [
    "Verif.Lattice.ucvFractional_range",
    "Verif.Lattice.ucvFractional_shift",
    "Verif.Lattice.ucvFractional_idem",
    "Verif.Lattice.ucvFractional_periodic",
    "Verif.Lattice.ucvCartesian_translation",
    "Verif.Lattice.ucvFractional_not_exact"
   ],
   "note": "the translation is exact unless a coordinate lies within 2^-26 below an integer (stated; witness included)"
  },
  {
   "property": "C32",
   "status": "partial",
   "theorems": [
    "Verif.Lattice.setLatBase_failure_corrupts",
    "Verif.Lattice.setLatBase_failure_partial",
    "Verif.Lattice.setLatPar_recovers",
    "Verif.Lattice.setLatBase_accepts"
   ],
   "note": "false as stated: a throwing setLatBase has already overwritten the base (setLatBase_failure_corrupts); proved: only the base changes and setLatPar restores the lattice"
  },
  {
   "property": "C33",
   "status": "proved",
   "theorems": [
    "Verif.Lattice.ucMaxDiagonal_bounds",
    "Verif.Lattice.ucMaxDiagonal_bounds_strict"
   ],
   "note": ""
  },
  {
   "property": "C40",
   "status": "partial",
   "theorems": [
    "Verif.MathUtils.cosd_eq_cos",
    "Verif.MathUtils.sind_eq_sin",
    "Verif.MathUtils.cosd_exact",
    "Verif.MathUtils.acosd_eq_arccos",
    "Verif.MathUtils.asind_tabulated_partial",
    "Verif.MathUtils.asind_elsewhere_is_acosd",
    "Verif.MathUtils.asind_wrong",
    "Verif.MathUtils.eps_trichotomy",
    "Verif.MathUtils.eps_laws",
    "Verif.MathUtils.eps_eq_not_transitive",
    "Verif.MathUtils.seqEqual_not_less",
    "Verif.MathUtils.seqLess_total",
    "Verif.MathUtils.seqLess_iff",
    "Verif.MathUtils.seqLess_asymm",
    "Verif.MathUtils.seqEqual_iff"
   ],
   "note": "cosd, sind, acosd and the comparisons proved; asind is wrong in the code except at its five tabulated arguments (asind_wrong)"
  },
  {
   "property": "C18",
   "status": "proved",
   "theorems": [
    "Verif.Points.sphere_visits_iff",
    "Verif.Points.spacing_visits_iff",
    "Verif.Points.sphere_extra_entry",
    "Verif.Points.sphere_terminates",
    "Verif.Points.sphere_nodup",
    "Verif.Points.sphere_complete",
    "Verif.Points.sphere_sound_partial",
    "Verif.Points.sphere_exact_partial",
    "Verif.Points.sphere_exact_full",
    "Verif.Points.reflections_complete",
    "Verif.Points.create_proper",
    "Verif.Points.reciprocal_proper",
    "Verif.Points.radius_sq",
    "Verif.Points.sphere_inner_boundary_bug",
    "Verif.Points.copy_never_ends_bug",
    "Verif.Points.copy_moves_source_bug",
    "Verif.Points.copy_frozen_next",
    "Verif.Points.copy_frozen_rewind",
    "Verif.Points.finished_copy_moves_source"
   ],
   "note": "sphere_visits_iff is the exact visited set; the shell of the header comment is false when a line along c enters the hole at a lattice point (sphere_inner_boundary_bug)"
  },
  {
   "property": "C15",
   "status": "proved",
   "theorems": [
    "Verif.Periodic.periodic_bonds_exact",
    "Verif.Periodic.periodic_bonds_user",
    "Verif.Periodic.periodic_bonds_unique",
    "Verif.Periodic.sphere_current",
    "Verif.Periodic.sphere_covers",
    "Verif.Periodic.radius_eq_norm"
   ],
   "note": "composed with the model of PointsInSphere, so no assumption on the iterator is left; 'zero distance' is the code's tolerance 2^-26"
  },
  {
   "property": "C34",
   "status": "partial",
   "theorems": [
    "Verif.Crystal.expand_partial",
    "Verif.Crystal.expand_exact_positions",
    "Verif.Crystal.expand_average_bug",
    "Verif.Crystal.multiplicity_current_partial",
    "Verif.Crystal.multiplicity_current_count_partial",
    "Verif.Crystal.multiplicity_stale_bug"
   ],
   "note": "one representative per class and positions exact unless a class straddles the cell boundary; false then (expand_average_bug); the cache is current unless atoms or lattice are edited in place after a query (multiplicity_stale_bug)"
  },
  {
   "property": "C46",
   "status": "proved",
   "theorems": [
    "Verif.Crystal.crystal_bonds_exact",
    "Verif.Crystal.crystal_p1_bug"
   ],
   "note": "proved for at least one symmetry operation; false with none for atoms outside the cell (crystal_p1_bug)"
  },
  {
   "property": "C12",
   "status": "partial",
   "theorems": [
    "Verif.History.history_value_partial",
    "Verif.History.history_result_partial",
    "Verif.History.full_eval_value",
    "Verif.History.full_eval_clears",
    "Verif.History.basic_history",
    "Verif.History.atomic_lawful",
    "Verif.History.exCalc_lawful",
    "Verif.History.setStructure_breaks_optimized",
    "Verif.History.setupParallel_breaks_optimized",
    "Verif.History.check_throws_in_parallel"
   ],
   "note": "proved for every history in which a public setStructure or a throwing OPTIMIZED evaluation that could be followed by a fast update is followed by a ticker click, an evaluator switch or a full evaluation instead, with a fixed CPU assignment; a full evaluation is right after any history; false otherwise (witnesses)"
  },
  {
   "property": "C13",
   "status": "partial",
   "theorems": [
    "Verif.History.failed_eval_recovers_partial",
    "Verif.History.failed_evals_harmless",
    "Verif.History.full_eval_value",
    "Verif.History.failed_eval_basic",
    "Verif.History.failed_eval_breaks_optimized",
    "Verif.History.failed_eval_check_throws"
   ],
   "note": "proved for BASIC evaluation; for OPTIMIZED and CHECK when nothing has been evaluated since the last change of configuration or evaluator, when the failure is followed by such a change, and when the next evaluation is done in full; false when a fast update fails (witness)"
  },
  {
   "property": "C38",
   "status": "proved",
   "theorems": [
    "Verif.Protocol.merge_error",
    "Verif.Protocol.merge_ok",
    "Verif.Protocol.merge_all_ok",
    "Verif.Protocol.merge_order",
    "Verif.Protocol.merge_surplus",
    "Verif.Protocol.gather_values"
   ],
   "note": ""
  },
  {
   "property": "C39",
   "status": "proved",
   "theorems": [
    "Verif.Protocol.switch_error",
    "Verif.Protocol.switch_accepts",
    "Verif.Protocol.switch_keeps",
    "Verif.Protocol.switch_history",
    "Verif.Protocol.reported_type",
    "Verif.Protocol.flag_read_back",
    "Verif.Protocol.setup_parallel"
   ],
   "note": ""
  },
  {
   "property": "C16",
   "status": "partial",
   "theorems": [
    "Verif.BondCalc.compare_lex",
    "Verif.BondCalc.compare_total",
    "Verif.BondCalc.bmerge_correct",
    "Verif.BondCalc.bonds_history_partial",
    "Verif.BondCalc.bond_history_partial",
    "Verif.BondCalc.atomic_blawful",
    "Verif.BondCalc.exCls_lawful",
    "Verif.BondCalc.parallel_bonds",
    "Verif.BondCalc.single_job_sends_nothing",
    "Verif.BondCalc.check_throws",
    "Verif.BondCalc.check_throws_iff",
    "Verif.BondCalc.parallel_fast_update_loses_bonds"
   ],
   "note": "proved for serial histories (as in C12, evaluators BASIC and OPTIMIZED) and for merging two or more jobs that evaluate in full; false for a single job, for fast updates in parallel jobs, and the CHECK evaluator throws on every fast update (witnesses)"
  },
  {
   "property": "C17",
   "status": "proved",
   "theorems": [
    "Verif.BondCalc.cone_filter_correct",
    "Verif.BondCalc.cone_180",
    "Verif.BondCalc.cone_rejects",
    "Verif.BondCalc.cone_off"
   ],
   "note": "over the reals"
  },
  {
   "property": "C27",
   "status": "proved",
   "theorems": [
    "Verif.PDFGrid.rgrid_exact",
    "Verif.PDFGrid.rgrid_spacing",
    "Verif.PDFGrid.calc_range",
    "Verif.PDFGrid.rescaled_spec"
   ],
   "note": "exact arithmetic in any ordered field with floor"
  },
  {
   "property": "C28",
   "status": "proved",
   "theorems": [
    "Verif.PDFGrid.restore_spec",
    "Verif.PDFGrid.restore_zero"
   ],
   "note": ""
  },
  {
   "property": "C29",
   "status": "proved",
   "theorems": [
    "Verif.PDFGrid.getRDF_spec",
    "Verif.PDFGrid.getRDFperR_spec",
    "Verif.PDFGrid.getPDF_spec",
    "Verif.PDFGrid.evaluated_fresh",
    "Verif.PDFGrid.fast_fresh",
    "Verif.PDFGrid.getRDF_after_setRmax_bug"
   ],
   "note": "proved for a calculator whose range has not been changed since the last evaluation; false after setRmax without re-evaluation (getRDF_after_setRmax_bug)"
  },
  {
   "property": "C47",
   "status": "proved",
   "theorems": [
    "Verif.PDFGrid.value_error",
    "Verif.PDFGrid.value_complete",
    "Verif.PDFGrid.rdf_complete",
    "Verif.PDFGrid.first_point_bug"
   ],
   "note": "error bound and exactness proved except that a bond touching only the first grid point may be dropped because the lower calculation limit is rounded up (first_point_bug)"
  },
  {
   "property": "C48",
   "status": "proved",
   "theorems": [
    "Verif.PDFGrid.fast_rdf_eq_basic",
    "Verif.PDFGrid.fast_value_differs"
   ],
   "note": "RDF equal for profiles that vanish at their bounds; the raw value() may differ outside the RDF range (fast_value_differs)"
  },
  {
   "property": "C49",
   "status": "proved",
   "theorems": [
    "Verif.Fft.fftgtof_spec",
    "Verif.Fft.fft_roundtrip"
   ],
   "note": "GSL's radix-2 FFT taken by its specification, over the reals"
  },
  {
   "property": "C50",
   "status": "proved",
   "theorems": [
    "Verif.PDFGrid.qgrid_exact",
    "Verif.PDFGrid.qgrid_none",
    "Verif.Fft.fourier_branch",
    "Verif.Fft.getPDF_length",
    "Verif.Fft.getF_length",
    "Verif.Fft.extendedG_spec",
    "Verif.Fft.full_window",
    "Verif.Fft.fourier_example"
   ],
   "note": "assuming a Q-step above 2^-26"
  },
  {
   "property": "C21",
   "status": "proved",
   "theorems": [
    "Verif.Attr.get_ok",
    "Verif.Attr.get_error",
    "Verif.Attr.set_spec",
    "Verif.Attr.set_failed",
    "Verif.Attr.get_after_set",
    "Verif.Attr.names_spec",
    "Verif.Attr.attr_map",
    "Verif.Attr.calculator_names_unique"
   ],
   "note": "the map law attr_map is for attributes that do not share storage; aliases of one quantity (width/uisowidth/bisowidth) are converted views of each other"
  },
  {
   "property": "C22",
   "status": "proved",
   "theorems": [
    "Verif.Registry.registry_refines",
    "Verif.Registry.call_results",
    "Verif.Registry.step_results",
    "Verif.Registry.deregister_spec",
    "Verif.Registry.listing_spec",
    "Verif.Registry.sft_register_spec",
    "Verif.Registry.sft_register_bug"
   ],
   "note": "proved for HasClassRegistry; false for ScatteringFactorTable::registerThisType, where a failing alias leaves the type registered (sft_register_bug)"
  },
  {
   "property": "C23",
   "status": "proved",
   "theorems": [
    "Verif.Tables.fromString_spec",
    "Verif.Tables.fromString_failed",
    "Verif.Tables.text_split",
    "Verif.Tables.lookup_history",
    "Verif.Tables.roundtrip_rounded",
    "Verif.Tables.roundtrip",
    "Verif.Tables.toString_sorted"
   ],
   "note": "number parsing and printing are parameters; the round trip is proved for radii that survive printing and symbols without separators"
  },
  {
   "property": "C26",
   "status": "proved",
   "theorems": [
    "Verif.Tables.sft_lookup_history",
    "Verif.Tables.sft_click",
    "Verif.Tables.sft_custom_value"
   ],
   "note": "the standard tables are a parameter"
  },
  {
   "property": "C37",
   "status": "proved",
   "theorems": [
    "Verif.AtomUtils.bare_spec",
    "Verif.AtomUtils.trimmed_unique",
    "Verif.AtomUtils.bare_not_idempotent",
    "Verif.AtomUtils.valence_spec",
    "Verif.AtomUtils.valence_zero",
    "Verif.AtomUtils.valence_spaces",
    "Verif.AtomUtils.valence_bound",
    "Verif.AtomUtils.symbol_roundtrip"
   ],
   "note": "proved for every symbol with a character that is neither a prefix nor a suffix character; false for strings such as '9 +' (bare_not_idempotent)"
  },
  {
   "property": "C24",
   "status": "partial",
   "theorems": [
    "Verif.BV.valence_distance_inverse",
    "Verif.BV.valence_at_Ro",
    "Verif.BV.valence_blank",
    "Verif.BV.lookup_priority",
    "Verif.BV.lookup_source",
    "Verif.BV.lookup_symmetric_partial",
    "Verif.BV.lookup_asymmetric_bug",
    "Verif.BV.lookup_symbols",
    "Verif.BV.table_history",
    "Verif.BV.getAll_spec"
   ],
   "note": "inverse, priority and history proved; order independence of lookup is false for different atoms of equal valence (lookup_asymmetric_bug)"
  },
  {
   "property": "C25",
   "status": "partial",
   "theorems": [
    "Verif.BV.bvs_value_partial",
    "Verif.BV.bvs_multiplicity_bug",
    "Verif.BV.cutoff_partial",
    "Verif.BV.cutoff_error_partial",
    "Verif.BV.bvmsdiff_spec"
   ],
   "note": "proved when every bond has its counterpart and parameters do not depend on atom order; false for symmetric crystals with sites of unequal multiplicity (bvs_multiplicity_bug, e.g. fluorite)"
  },
  {
   "property": "C19",
   "status": "proved",
   "theorems": [
    "Verif.Overlap.queries_spec",
    "Verif.Overlap.siteSquareOverlaps_spec",
    "Verif.Overlap.totalSquareOverlap_spec",
    "Verif.Overlap.means_spec",
    "Verif.Overlap.flipDiffTotal_spec",
    "Verif.Overlap.flipDiffTotal_laws",
    "Verif.Overlap.maxSeparation_swap",
    "Verif.Overlap.cacheOK_fresh",
    "Verif.Overlap.cacheOK_filled",
    "Verif.Overlap.cacheOK_reload",
    "Verif.Overlap.coordinations_spec",
    "Verif.Overlap.coordinationByTypes_spec",
    "Verif.Overlap.getNeighborSites_spec",
    "Verif.Overlap.parallel_overlap",
    "Verif.Overlap.exTrace_balanced"
   ],
   "note": "for bond lists in which every bond has its counterpart from the other end (Balanced), as every complete evaluation without one-sided masks produces"
  },
  {
   "property": "C20",
   "status": "proved",
   "theorems": [
    "Verif.Overlap.neighborhoods_components",
    "Verif.Overlap.neighborhoods_spec"
   ],
   "note": ""
  },
  {
   "property": "C51",
   "status": "partial",
   "theorems": [
    "Verif.Overlap.total_is_energy",
    "Verif.Overlap.gradients_correct_partial",
    "Verif.Overlap.gradients_ignore_occupancy_bug",
    "Verif.Overlap.gradients_spec",
    "Verif.Overlap.periodic_gradients_partial"
   ],
   "note": "proved for finite and periodic fully occupied structures; false with partial occupancies, which gradients() ignores (gradients_ignore_occupancy_bug)"
  },
  {
   "property": "C52",
   "status": "partial",
   "theorems": [
    "Verif.Overlap.cacheOK_reload",
    "Verif.Overlap.reload_doubles_bug"
   ],
   "note": "the overlap queries through the neighbour cache survive a reload (cacheOK_reload); coordinationByTypes is doubled after a reload of a queried calculator (reload_doubles_bug)"
  },
  {
   "property": "C35",
   "status": "proved",
   "theorems": [
    "Verif.Envelope.owner_history",
    "Verif.Envelope.failed_calls",
    "Verif.Envelope.types_spec",
    "Verif.Envelope.apply_spec",
    "Verif.Envelope.apply_order",
    "Verif.Envelope.add_pop",
    "Verif.Envelope.baseline_spec",
    "Verif.Envelope.spherical_spec",
    "Verif.Envelope.spherical_off",
    "Verif.Envelope.spherical_volume",
    "Verif.Envelope.stepCut_spec",
    "Verif.Envelope.qResolution_spec"
   ],
   "note": ""
  },
  {
   "property": "C36",
   "status": "partial",
   "theorems": [
    "Verif.Peak.precision_history",
    "Verif.Peak.gauss_spec",
    "Verif.Peak.gauss_bounds",
    "Verif.Peak.cropped_spec",
    "Verif.Peak.cropped_nan_bug",
    "Verif.Peak.gauss_within",
    "Verif.Peak.cropped_bounded",
    "Verif.Peak.gauss_value_error",
    "Verif.Peak.msd_spec",
    "Verif.Peak.maxUii_spec",
    "Verif.Peak.dw_max_partial",
    "Verif.Peak.dw_max_sqrt3",
    "Verif.Peak.dw_max_bug",
    "Verif.Peak.jeong_max_partial",
    "Verif.Peak.jeong_interior_bug",
    "Verif.Peak.jeong_rmin_zero_bug",
    "Verif.Peak.jeong_tail_bug",
    "Verif.Peak.constant_spec"
   ],
   "note": "profiles proved (over the reals, GSL's erf by its definition) except NaN at zero width (cropped_nan_bug); maxWidth bounds the widths for isotropic or axis-aligned displacements and regular Jeong parameters, and is false otherwise (dw_max_bug, jeong_interior_bug, jeong_rmin_zero_bug, jeong_tail_bug)"
  },
  {
   "property": "C41",
   "status": "proved",
   "theorems": [
    "Verif.LineReader.reading_spec",
    "Verif.LineReader.fields_spec",
    "Verif.LineReader.fields_unique",
    "Verif.LineReader.words_spec",
    "Verif.LineReader.tokens_unique",
    "Verif.LineReader.classify_words",
    "Verif.LineReader.classify_fields"
   ],
   "note": ""
  },
  {
   "property": "C53",
   "status": "proved",
   "theorems": [
    "Verif.LineReader.table_spec",
    "Verif.LineReader.electron_ion",
    "Verif.LineReader.electron_short",
    "Verif.LineReader.electron_spelling",
    "Verif.LineReader.table_stays",
    "Verif.LineReader.load_ok_iff",
    "Verif.LineReader.failed_load_bug"
   ],
   "note": "proved for successful loads; a failed first load leaves an incomplete table that later calls use silently (failed_load_bug)"
  },
  {
   "property": "C54",
   "status": "proved",
   "theorems": [
    "Verif.Mask.typemask_pair",
    "Verif.Mask.typemask_one_all",
    "Verif.Mask.typemask_all_all",
    "Verif.Mask.typemask_last"
   ],
   "note": "'ALL' is accepted by setTypeMask but not by getTypeMask, so the queries range over type names other than 'all'"
  },
  {
   "property": "C42",
   "status": "proved",
   "theorems": [
    "Verif.Wrappers.wrapper_sites",
    "Verif.Wrappers.wrapper_symmetry",
    "Verif.Wrappers.wrapper_meta",
    "Verif.Wrappers.wrapper_idempotent",
    "Verif.Wrappers.wrapper_factory",
    "Verif.Wrappers.wrapper_clone",
    "Verif.Wrappers.wrapper_clone_deep",
    "Verif.Wrappers.wrapper_diff",
    "Verif.Wrappers.wrapper_diff_sound"
   ],
   "note": "wrappers made by the default constructor (null source) are left out"
  },
  {
   "property": "C43",
   "status": "proved",
   "theorems": [
    "Verif.Wrappers.pairCount_spec",
    "Verif.Wrappers.pairCount_all",
    "Verif.Wrappers.pairCount_general",
    "Verif.Wrappers.pairCount_parallel",
    "Verif.Wrappers.totalOccupancy_spec",
    "Verif.Wrappers.totalOccupancy_expanded",
    "Verif.Wrappers.density_spec",
    "Verif.Wrappers.density_supercell"
   ],
   "note": "the OPTIMIZED evaluator rejects PairCounter, which defines no stashPartialValue; for periodic structures pairCount_general assumes that bonds of a site with its own images come in opposite pairs"
  },
  {
   "property": "C55",
   "status": "partial",
   "theorems": [
    "Verif.KindDiff.diff_kind_partial",
    "Verif.KindDiff.kind_lawful_partial",
    "Verif.KindDiff.diff_kind_down",
    "Verif.KindDiff.diff_kind_bug",
    "Verif.KindDiff.fast_update_kind_bug"
   ],
   "note": "proved for structures of one class; false between a finite and a periodic structure, or a periodic structure and a crystal, with the same atoms: diff() of the base class reports them as equal and the fast update keeps the old value (fast_update_kind_bug)"
  },
  {
   "property": "C44",
   "status": "partial",
   "theorems": [
    "Verif.Debye.sf_first",
    "Verif.Debye.sf_occupancy_partial",
    "Verif.Debye.sf_occupancy_bug",
    "Verif.Debye.sf_base"
   ],
   "note": "false in general: the calculator keeps one scattering factor per atom type, that of the first site of the type with its occupancy (sf_first, sf_occupancy_bug); true when sites of one type have equal occupancies (sf_occupancy_partial)"
  },
  {
   "property": "C56",
   "status": "partial",
   "theorems": [
    "Verif.Debye.debye_exact",
    "Verif.Debye.debye_error",
    "Verif.Debye.debye_base_error",
    "Verif.Debye.debye_pdf_error_partial",
    "Verif.Debye.value_get",
    "Verif.Debye.sfAverage_get",
    "Verif.Debye.getF_normalized",
    "Verif.Debye.value_below_qmin",
    "Verif.Debye.premature_break",
    "Verif.Debye.premature_break_example",
    "Verif.Debye.getF_stale_bug"
   ],
   "note": "exact when no term is below the precision; the error bound is proved for factors whose product decreases with Q, since the loop over Q stops at the first small term (premature_break_example); getF after a change of the Q range without evaluation leaves its arrays (getF_stale_bug)"
  },
  {
   "property": "C45",
   "status": "partial",
   "theorems": [
    "Verif.Setters.p_setters",
    "Verif.Setters.p_good",
    "Verif.Setters.p_noclick",
    "Verif.Setters.p_noclick_range",
    "Verif.Setters.p_setQmax_bug",
    "Verif.Setters.d_good",
    "Verif.Setters.dnew_good",
    "Verif.Setters.d_tracked",
    "Verif.Setters.d_reject",
    "Verif.Setters.d_late_throw",
    "Verif.Setters.setQmax_zero_bug",
    "Verif.Setters.setRstep_untracked",
    "Verif.History.unchanged_keeps_value",
    "Verif.History.stale_without_click"
   ],
   "note": "proved for the setters of PDFCalculator and DebyePDFCalculator except: PDFCalculator setQmax from a negligible to a usable value changes the range without a click (p_setQmax_bug), DebyePDFCalculator setQmax(0) throws after changing the state (d_late_throw, setQmax_zero_bug) and setRstep changes the range without a click (setRstep_untracked)"
  },
  {
   "property": "C57",
   "status": "partial",
   "theorems": [
    "Verif.Setters.reset_range",
    "Verif.Setters.reset_stable",
    "Verif.Setters.extended_covers",
    "Verif.Setters.debye_default",
    "Verif.Setters.setQstep_spec",
    "Verif.Setters.setRmax_opt",
    "Verif.Setters.reset_parts",
    "Verif.Setters.reset_custom",
    "Verif.Setters.history_dependence_bug"
   ],
   "note": "coverage, Q step and stability are proved; that the range depends only on parameters and structure is false, it keeps the limits of earlier calls (history_dependence_bug)"
  },
  {
   "property": "C58",
   "status": "partial",
   "theorems": [
    "Verif.Debye.debye_pdf",
    "Verif.Debye.debye_pdf_partial",
    "Verif.Debye.sinePDF_node",
    "Verif.Debye.padF_spec",
    "Verif.Debye.gpad_spec",
    "Verif.Debye.interp_edge_bug"
   ],
   "note": "proved for the transform and interpolation wherever both interpolation nodes are in the array; at the last node the code reads one element past the end with weight zero (interp_edge_bug)"
  },
  {
   "property": "C59",
   "status": "proved",
   "theorems": [
    "Verif.PDFCache.sfSite_spec",
    "Verif.PDFCache.rdfScale_spec",
    "Verif.PDFCache.activeocc_spec",
    "Verif.PDFCache.slope_spec",
    "Verif.PDFCache.activeFraction_laws"
   ],
   "note": "a symbol without scattering factor makes the code throw; lookups are total in the model"
  },
  {
   "property": "C60",
   "status": "proved",
   "theorems": [
    "Verif.PDFCache.rdf_finite",
    "Verif.PDFCache.rdf_cropped",
    "Verif.PDFCache.rdf_gauss",
    "Verif.PDFCache.pdf_finite",
    "Verif.PDFCache.rdf_periodic",
    "Verif.PDFCache.jeong_even",
    "Verif.PDFCache.periodicGen_exists",
    "Verif.PDFCache.evalGen_eq"
   ],
   "note": "grid points less than one step above the lower end of the extended range are left out, there the code can miss a bond (C47); the range extension must fit maxextension; structures with symmetry (CrystalStructureAdapter) are covered by evalGen_eq only under the symmetry of their bond sums; the Q window is in C49/C50"
  },
  {
   "property": "C61",
   "status": "proved",
   "theorems": [
    "Verif.PDFCache.rdf_crystal",
    "Verif.PDFCache.rdf_orbits",
    "Verif.PDFCache.orbit_eq",
    "Verif.PDFCache.spaceGroup_sym",
    "Verif.PDFCache.orbit_mult",
    "Verif.PDFCache.orbit_balance",
    "Verif.PDFCache.crystalGen_exists"
   ],
   "note": "proved for crystals whose operations form a space group, with images that coincide within the precision coinciding exactly (otherwise positions are averaged, C34) and away from the rounding of coordinates just below 1; grid points less than one step above the lower end of the extended range are left out (C47)"
  },
  {
   "property": "C62",
   "status": "partial",
   "theorems": [
    "Verif.PDFCache.image_msd",
    "Verif.PDFCache.crystal_msd",
    "Verif.PDFCache.rdf_tensor",
    "Verif.PDFCache.ucartesian1_spec",
    "Verif.PDFCache.identity_first_bug",
    "Verif.PDFCache.unbalanced_bug"
   ],
   "note": "proved when the first operation is the identity and no operation mixes axes of different reciprocal lengths; both conditions are needed: the anchor of a bond uses the tensor of the untransformed atom (identity_first_bug) and R U R^T is formed in normalised coordinates (unbalanced_bug)"
  },
  {
   "property": "C63",
   "status": "proved",
   "theorems": [
    "Verif.Composite.change_detected",
    "Verif.Composite.no_spurious",
    "Verif.Composite.calls_effect",
    "Verif.Composite.assign_untracked",
    "Verif.History.stale_without_click"
   ],
   "note": "proved for every call of the C++ interface except assignment to the reference that getPeakWidthModel() returns, which replaces the model without a click (assign_untracked)"
  },
  {
   "property": "C64",
   "status": "partial",
   "theorems": [
    "Verif.Copies.unshared_independent",
    "Verif.Copies.copy_same",
    "Verif.Copies.members_independent",
    "Verif.Copies.basic_copies_partial",
    "Verif.Copies.copy_detached",
    "Verif.Copies.copy_optimized_bug",
    "Verif.Copies.copy_parallel_bug"
   ],
   "note": "proved for BASIC evaluation and for calculators that do not share an evaluator (e.g. after choosing another evaluator type for the copy); false for OPTIMIZED evaluation and parallel setup of a plain copy, which shares the evaluator object (copy_optimized_bug, copy_parallel_bug)"
  },
  {
   "property": "C65",
   "status": "partial",
   "theorems": [
    "Verif.Reload.reload_exact",
    "Verif.Reload.reload_history_partial",
    "Verif.Reload.reload_members",
    "Verif.Reload.save_check_bug",
    "Verif.Reload.save_ok",
    "Verif.Reload.load_outdated",
    "Verif.Reload.loadTick_spec",
    "Verif.Reload.reload_ctl"
   ],
   "note": "calculators with the CHECK evaluator cannot be saved (save_check_bug); the last used evaluator type is not restored; when the process clicks while the archive is being loaded only the histories of C12 are proved; the byte format of boost archives is not modelled"
  },
  {
   "property": "C66",
   "status": "proved",
   "theorems": [
    "Verif.ObjCryst.fetch_spec",
    "Verif.ObjCryst.crystal_atoms",
    "Verif.ObjCryst.molecule_atoms",
    "Verif.ObjCryst.crystal_orbit",
    "Verif.ObjCryst.crystal_rdf",
    "Verif.ObjCryst.fetch_general",
    "Verif.ObjCryst.first_translation_bug",
    "Verif.ObjCryst.act_shift",
    "Verif.ObjCryst.act_invert"
   ],
   "note": "ObjCryst objects are inputs (what their accessors return); images and RDF (crystal_orbit, crystal_rdf) under the conditions of C61/C62; a list of translations that does not start with zero gives wrong operations (first_translation_bug)"
  },
  {
   "property": "C67",
   "status": "proved",
   "theorems": [
    "Verif.ScatData.xray_formula",
    "Verif.ScatData.xray_even",
    "Verif.ScatData.xray_zero",
    "Verif.ScatData.xray_monotone",
    "Verif.ScatData.electron_formula",
    "Verif.ScatData.electron_bound",
    "Verif.ScatData.findWK_spec",
    "Verif.ScatData.findWK_short",
    "Verif.ScatData.load_file",
    "Verif.ScatData.wk_file",
    "Verif.ScatData.xray_file",
    "Verif.ScatData.wk_stays",
    "Verif.ScatData.load_rejects",
    "Verif.ScatData.fxray_spec",
    "Verif.ScatData.felectron_spec",
    "Verif.ScatData.findWK_multi_bug",
    "Verif.ScatData.wk_failed_load_bug"
   ],
   "note": "formatted input of numbers is a parameter of the general theorems and that of C81 in wk_file and xray_file; ions of isotopes with a charge above one are not found (findWK_multi_bug); after a failed load the incomplete set is used silently (wk_failed_load_bug); when the coefficients do not add up to a whole number the electron factor grows as 1/Q^2"
  },
  {
   "property": "C68",
   "status": "proved",
   "theorems": [
    "Verif.ScatData.rowName_spec",
    "Verif.ScatData.bc_table",
    "Verif.ScatData.bc_ok",
    "Verif.ScatData.bc_file",
    "Verif.ScatData.loadBC_rows",
    "Verif.ScatData.addRow_spec",
    "Verif.ScatData.bc_charge",
    "Verif.ScatData.mass_suffix_bug"
   ],
   "note": "formatted input of numbers is a parameter of the general theorems and that of C81 in bc_file; a mass number at the end of the symbol, as in the data file, is taken for a charge and dropped: H-2 has the length of H (mass_suffix_bug); an isotope row with an empty half-life reads before the start of an empty string, which the model takes as no match; failed loads as in C53"
  },
  {
   "property": "C69",
   "status": "proved",
   "theorems": [
    "Verif.Rounding.rounding_drift",
    "Verif.Rounding.control_unchanged",
    "Verif.Rounding.optimized_drift",
    "Verif.Rounding.basic_work",
    "Verif.Rounding.merge_drift",
    "Verif.Rounding.parallel_drift",
    "Verif.Rounding.compare_spec",
    "Verif.Rounding.compare_iff",
    "Verif.Rounding.check_negative_bug",
    "Verif.Rounding.drift_stays",
    "Verif.Rounding.step_exact",
    "Verif.Rounding.run_exact"
   ],
   "note": "the tolerance of the CHECK evaluator is taken from the largest signed value: for values that are all below -1 it reports differences that are within the relative tolerance (check_negative_bug); the drift bound is attained in the sense that the error of a removed large contribution stays in the OPTIMIZED value (drift_stays); contributions themselves are compared as computed, overflow and underflow are not modelled"
  },
  {
   "property": "C70",
   "status": "proved",
   "theorems": [
    "Verif.Double.fl64_rounds",
    "Verif.Double.fl64_exact",
    "Verif.Double.rmin_rounded",
    "Verif.Double.rmin_multiple",
    "Verif.Double.rgrid_rounded",
    "Verif.Double.rmax_bug"
   ],
   "note": "proved up to the tolerance at both ends; that rmax itself is excluded is false in doubles when rmax is a multiple of the step, there is no tolerance at the upper end (rmax_bug); exponent range of doubles is unbounded in the model"
  },
  {
   "property": "C71",
   "status": "proved",
   "theorems": [
    "Verif.Buffers.nested_calls",
    "Verif.Buffers.copied_results",
    "Verif.Buffers.kept_reference",
    "Verif.Buffers.distance_two",
    "Verif.Buffers.latDistance_two",
    "Verif.Buffers.matrix_call",
    "Verif.Buffers.matrix_nested",
    "Verif.Buffers.setLatBase_references",
    "Verif.Buffers.same_function_bug",
    "Verif.Buffers.product_twice_bug",
    "Verif.Buffers.permute_bug",
    "Verif.Buffers.getQmax_bug"
   ],
   "note": "the conditions are needed: the distance of two results of one function is always 0 (same_function_bug), a product applied to its own result is wrong (product_twice_bug), L.setLatBase(L.vb(), L.vc(), L.va()) silently stores an inconsistent lattice (permute_bug), references from getQmax of two calculators are the same object (getQmax_bug)"
  },
  {
   "property": "C72",
   "status": "proved",
   "theorems": [
    "Verif.InPlace.edits_noticed",
    "Verif.InPlace.edits_noticed_partial",
    "Verif.InPlace.live_edits_noticed",
    "Verif.InPlace.refines_values",
    "Verif.InPlace.calls_leave_structures",
    "Verif.InPlace.current_structure",
    "Verif.InPlace.live_optimized_bug"
   ],
   "note": "for fast evaluators and programs that also fail or call setStructure the theorem needs the taint condition of C12 (edits_noticed_partial); edits do not happen while a call runs; clones are deep, so adapters whose symmetry caches go stale after in-place edits (C37) are outside"
  },
  {
   "property": "C73",
   "status": "proved",
   "theorems": [
    "Verif.Equality.atom_eq_iff",
    "Verif.Equality.atom_eq_equiv",
    "Verif.Equality.atom_eq_nan",
    "Verif.Equality.atom_hash",
    "Verif.Equality.vec_mat_hash",
    "Verif.Equality.atom_lt_iff",
    "Verif.Equality.atom_order",
    "Verif.Equality.order_nan_bug",
    "Verif.Equality.eqAtomic_iff",
    "Verif.Equality.eqPeriodic_iff",
    "Verif.Equality.eqCrystal_iff",
    "Verif.Equality.eq_self_copy",
    "Verif.Equality.eq_structures_equiv",
    "Verif.Equality.equal_periodic_same",
    "Verif.Equality.equal_crystals_same",
    "Verif.Equality.eq_ignores_precision_bug",
    "Verif.Lattice.equal_lattices"
   ],
   "note": "double with NaN, infinities and signed zeros; with NaN the order of atoms is not one that std::sort accepts (order_nan_bug); the symmetry precision is not compared (eq_ignores_precision_bug)"
  },
  {
   "property": "C74",
   "status": "proved",
   "theorems": [
    "Verif.Archive.structures_restored",
    "Verif.Archive.tables_restored",
    "Verif.Archive.components_restored",
    "Verif.Archive.pdf_restored",
    "Verif.Archive.debye_restored",
    "Verif.Archive.bonds_restored",
    "Verif.Archive.bvs_restored",
    "Verif.Archive.overlap_restored",
    "Verif.Archive.structure_saves",
    "Verif.Archive.pq_saves",
    "Verif.Archive.pdf_saves",
    "Verif.Archive.replace_saves",
    "Verif.Archive.replace_restores",
    "Verif.Archive.newer_rejected",
    "Verif.Archive.bvtable_version0",
    "Verif.Archive.debye_version0",
    "Verif.Archive.truncated_corrupts_bug"
   ],
   "note": "archive = list of items; byte format and object tracking of boost are trusted; a failed load leaves the target half loaded (truncated_corrupts_bug); the recipe replacePairQuantityStructure for structures without exported class fails when an OPTIMIZED evaluator holds a copy of such a structure (replace_saves); consequences of the neighbor list mark are in C52, of tickers in another process in C65"
  },
  {
   "property": "C75",
   "status": "proved",
   "theorems": [
    "Verif.RtPath.trim_spec",
    "Verif.RtPath.resolves_unique",
    "Verif.RtPath.datapath_pure",
    "Verif.RtPath.answer_sound",
    "Verif.RtPath.env_sticky",
    "Verif.RtPath.env_looks",
    "Verif.RtPath.lib_sticky",
    "Verif.RtPath.lib_looks",
    "Verif.RtPath.race_bug",
    "Verif.RtPath.race_crash_bug"
   ],
   "note": "the answers of stat, realpath, dirname and dladdr are inputs; when the file system changes within one call the answer can be an empty directory (race_bug) or a string made from a null pointer (race_crash_bug); threads are not modelled"
  },
  {
   "property": "C76",
   "status": "proved",
   "theorems": [
    "Verif.Queries.snapshot_queries",
    "Verif.Queries.safe_iff",
    "Verif.Queries.byTypes_safe_iff",
    "Verif.Queries.flip_safe",
    "Verif.Queries.after_eval_safe",
    "Verif.Queries.grown_safe",
    "Verif.Queries.flip_grown_bug",
    "Verif.Queries.queries_independent",
    "Verif.Queries.neighbors_complete",
    "Verif.Queries.query_between_merges_bug",
    "Verif.Queries.bvs_safe_iff",
    "Verif.Queries.bond_types_safe_iff",
    "Verif.Queries.mean_value"
   ],
   "note": "exact conditions; outside them the code reads outside arrays (flip_grown_bug for an added atom, the converse directions of safe_iff for erased atoms, of bvs_safe_iff for added ones); a neighbour query between two merges of parallel data hides the bonds merged later (query_between_merges_bug)"
  },
  {
   "property": "C77",
   "status": "proved",
   "theorems": [
    "Verif.Components.new_defaults",
    "Verif.Components.set_effect",
    "Verif.Components.set_get",
    "Verif.Components.readable_iff_settable",
    "Verif.Components.width_views",
    "Verif.Components.others_untouched",
    "Verif.Components.last_setting_wins",
    "Verif.Components.clone_create",
    "Verif.Components.same_settings_same_behaviour",
    "Verif.Components.value_formula",
    "Verif.Components.ticker_iff_changed",
    "Verif.Components.registered"
   ],
   "note": "over real numbers; the contents of radii and scattering factor tables are C23 and C26"
  },
  {
   "property": "C78",
   "status": "proved",
   "theorems": [
    "Verif.GenObj.settings_after_any_history",
    "Verif.GenObj.loop_after_any_history",
    "Verif.GenObj.abandoned_loops_do_not_matter",
    "Verif.GenObj.configuration_ends_loop",
    "Verif.GenObj.finished_stays",
    "Verif.GenObj.valid_sites_never_fail",
    "Verif.GenObj.no_bonds_without_rmax",
    "Verif.GenObj.range_fixed_at_creation",
    "Verif.GenObj.unselected_anchor_bug",
    "Verif.GenObj.unselected_anchor_witness",
    "Verif.GenObj.stale_anchor_bug",
    "Verif.GenObj.periodic_loop_after_any_history",
    "Verif.GenObj.periodic_points_current",
    "Verif.GenObj.periodic_object_bonds",
    "Verif.GenObj.periodic_loops_never_fail",
    "Verif.GenObj.periodic_positions_frozen_bug",
    "Verif.GenObj.periodic_lattice_edit_bug",
    "Verif.GenObj.limit_change_inside_loop_bug",
    "Verif.GenObj.selection_inside_loop_continues_bug",
    "Verif.GenObj.new_generator_finished",
    "Verif.GenObj.crystal_loop_after_any_history",
    "Verif.GenObj.crystal_points_current",
    "Verif.GenObj.crystal_object_bonds",
    "Verif.GenObj.crystal_ucartesian1_valid",
    "Verif.GenObj.crystal_loops_never_fail",
    "Verif.GenObj.crystal_stopped_loop_never_fails",
    "Verif.GenObj.second_generator_inside_loop_bug",
    "Verif.GenObj.crystal_next_when_finished_bug",
    "Verif.GenObj.crystal_configuration_inside_loop_bug"
   ],
   "note": "over real numbers; the _bug theorems state the traps: an unselected anchor is site 0 placed at the origin, a moved anchor or a changed lattice is not noticed, and in a periodic generator a limit changed inside a loop makes next() use a null pointer while a selection made inside a loop does not end it; for a crystal, next() on a finished generator is out of bounds, and a second generator created inside a loop leaves Ucartesian1() of the first dangling"
  },
  {
   "property": "C79",
   "status": "proved",
   "theorems": [
    "Verif.Edits.edit_positions",
    "Verif.Edits.edit_allowed",
    "Verif.Edits.edits_length",
    "Verif.Edits.edits_card",
    "Verif.Edits.sorted_diff_minimal",
    "Verif.Edits.edits_bound_difference",
    "Verif.Edits.small_edits_allow_fast_update",
    "Verif.Edits.reordered_allows_fast_update",
    "Verif.Edits.append_only_difference",
    "Verif.Edits.writes_difference"
   ],
   "note": "iterators are offsets; coordinates without NaN (see C80)"
  },
  {
   "property": "C80",
   "status": "partial",
   "theorems": [
    "Verif.NanDiff.atoms_equal_iff",
    "Verif.NanDiff.without_nan",
    "Verif.NanDiff.sideBySide_lists_nan",
    "Verif.NanDiff.copy_with_nan",
    "Verif.NanDiff.sorted_pairs",
    "Verif.NanDiff.moved_to_nan_not_noticed_bug",
    "Verif.NanDiff.empty_difference_keeps_result",
    "Verif.NanDiff.incomparable_not_transitive_bug"
   ],
   "note": "the part about sorted differences is false: unlisted sites form pairs that the order cannot tell apart (sorted_pairs), and with NaN these need not be equal; for a single atom the change is always missed (moved_to_nan_not_noticed_bug) and the fast update then makes no calls"
  },
  {
   "property": "C81",
   "status": "partial",
   "theorems": [
    "Verif.Input.int_word",
    "Verif.Input.int_fails",
    "Verif.Input.double_word",
    "Verif.Input.double_fails",
    "Verif.Input.ion_line",
    "Verif.Input.wk_line",
    "Verif.Input.bc_field",
    "Verif.Input.ion_file",
    "Verif.ScatData.wk_file",
    "Verif.ScatData.bc_file",
    "Verif.BVFile.cif_line",
    "Verif.BVFile.cif_line_rejected",
    "Verif.BVFile.setFromCifLine_spec",
    "Verif.BVFile.standard_table",
    "Verif.BVFile.file_entry_found",
    "Verif.BVFile.table_stays",
    "Verif.BVFile.failed_load_bug",
    "Verif.BVFile.missing_file_bug",
    "Verif.BVFile.no_mark_bug",
    "Verif.BVFile.glued_words_accepted_bug"
   ],
   "note": "false in part: after a failed load the next call returns what was read so far (failed_load_bug, missing_file_bug), a file without the header mark gives an empty table (no_mark_bug), and numbers may run into the next word (glued_words_accepted_bug). Formatted input as in libstdc++, without subnormal numbers"
  },
  {
   "property": "C82",
   "status": "partial",
   "theorems": [
    "Verif.BV.half_exact",
    "Verif.BV.finite_sums",
    "Verif.BV.periodic_sums",
    "Verif.BV.crystal_sums",
    "Verif.BV.crystal_sums_equal_partial",
    "Verif.BV.dropped_neighbours_partial",
    "Verif.BV.crystal_sums_bug",
    "Verif.BV.caf_neighbours"
   ],
   "note": "exact formula for all three kinds of structures; for crystals with different multiplicities it is not the bond valence sum (crystal_sums_bug), crystal_sums_equal_partial is the case of equal multiplicities. dropped_neighbours_partial assumes parameters that do not depend on the order of the atoms and no entry for blank atoms"
  },
  {
   "property": "C83",
   "status": "partial",
   "theorems": [
    "Verif.Overlap.site_square_overlaps",
    "Verif.Overlap.site_coordinations",
    "Verif.Overlap.total_square_overlap",
    "Verif.Overlap.limits_irrelevant",
    "Verif.Overlap.neighbour_sites",
    "Verif.Overlap.coordination_by_types",
    "Verif.Overlap.flip_difference",
    "Verif.Overlap.neighborhoods_end_to_end",
    "Verif.Overlap.periodic_gradients_partial",
    "Verif.Overlap.crystal_gradient_zero",
    "Verif.Overlap.crystal_gradient_bug",
    "Verif.Geo.gen_exists",
    "Verif.Geo.delivers",
    "Verif.Geo.range_finite",
    "Verif.Geo.balance"
   ],
   "note": "values, coordinations, neighbours, flips and neighborhoods proved for all three kinds of structures; gradients only for fully occupied periodic structures (periodic_gradients_partial) and finite ones (C51): false for partial occupancies (C51) and for crystals (crystal_gradient_zero, crystal_gradient_bug: one set of atoms, described with and without symmetry, has different gradients)"
  },
  {
   "property": "C84",
   "status": "proved",
   "theorems": [
    "Verif.BondCalc.bond_list",
    "Verif.BondCalc.bond_parallel",
    "Verif.BondCalc.lists_agree",
    "Verif.BondCalc.reverse_listed",
    "Verif.BondCalc.calculator_exists",
    "Verif.Geo.vecs_spec",
    "Verif.Geo.gen_vecs",
    "Verif.Geo.trace_vecs",
    "Verif.Geo.atomic_vectors",
    "Verif.Geo.periodic_vectors",
    "Verif.Geo.crystal_vectors"
   ],
   "note": "over exact reals; the history of fast updates is C16 (bond_history_partial)"
  },
  {
   "property": "C85",
   "status": "partial",
   "theorems": [
    "Verif.Debye.debye_F_partial",
    "Verif.Debye.debye_F_exact_partial",
    "Verif.Debye.reciprocal_distance",
    "Verif.Debye.reciprocal_even",
    "Verif.Debye.reciprocal_crystal",
    "Verif.Debye.crystal_widths",
    "Verif.Debye.trace_length"
   ],
   "note": "for atoms whose occupancy is the same for each type and factors that do not grow with Q in absolute value (both needed, see C44 and C56); over exact reals"
  },
  {
   "property": "C86",
   "status": "proved",
   "theorems": [
    "Verif.PDFHist.rdf_history",
    "Verif.PDFHist.rdf_history_cropped",
    "Verif.PDFHist.rdf_parallel",
    "Verif.PDFHist.drawn_cropped",
    "Verif.PDFHist.counted_fits",
    "Verif.PDFHist.calculator_exists",
    "Verif.PDFHist.setter_quiet"
   ],
   "note": "over exact reals; configuration calls must click the ticker unless they only shrink the termination ripples (setQmax upwards does not click, PDFCalculator.cpp:279; by setter_quiet every accepted numeric setter is of one of the two kinds when Qmax is above 2^-26), and a setStructure call under a fast evaluator must be followed by a clicking call or a change of evaluator (C12); with the CHECK evaluator an evaluation can throw although the result is right (`fast_value_differs`, C47), the state is as stated"
  },
  {
   "property": "C87",
   "status": "partial",
   "theorems": [
    "Verif.DebyeHist.F_history_partial",
    "Verif.DebyeHist.fresh_history_partial",
    "Verif.DebyeHist.F_parallel_partial",
    "Verif.DebyeHist.steady_of",
    "Verif.DebyeHist.calculator_exists",
    "Verif.DebyeHist.stale_range_bug",
    "Verif.DebyeHist.setRstep_bug"
   ],
   "note": "false in full: resetValue changes the range without a click unless the Q step changes, so a fast update keeps contributions of the narrower range (stale_range_bug); a setStructure call, or a change of what F(Q) depends on without a click, leaves out the evaluations up to the next full one (taintRunF); sites of different multiplicity with a cut-off, occupancies that differ within a type (C44) and growing factors (C56) are left out too; over exact reals"
  },
  {
   "property": "C88",
   "status": "proved",
   "theorems": [
    "Verif.PDFHist.pdf_history",
    "Verif.PDFHist.pdf_history_whole",
    "Verif.PDFHist.pdf_parallel",
    "Verif.PDFHist.out_of_agrees",
    "Verif.PDFHist.density_eq",
    "Verif.PDFHist.update_fn",
    "Verif.PDFHist.base_zero",
    "Verif.PDFHist.given_extended"
   ],
   "note": "over exact reals; with the hypotheses of C86 (ticker clicks, cropped range, no mask on sites under fast updates); at points of the extended range outside the r grid plus ripples edges (Seen) the summand is left open by pdf_history and pinned down by pdf_history_whole, for rmin within the ripples and cropped profiles; a Qmax within 2^-26 below the Nyquist limit is left out"
  },
  {
   "property": "C89",
   "status": "partial",
   "theorems": [
    "Verif.DebyeHist.G_history_partial",
    "Verif.DebyeHist.G_parallel_partial"
   ],
   "note": "false in full for the reasons of C87 (stale_range_bug) and C58 (interp_edge_bug: reads past the end without an extension); growing factors, occupancies that differ within a type and negative precision are left out; over exact reals"
  },
  {
   "property": "C90",
   "status": "partial",
   "theorems": [
    "Verif.PDFHist.library_rdf_partial",
    "Verif.PDFHist.library_rdf_cropped_partial",
    "Verif.PDFHist.library_pdf_partial",
    "Verif.PDFHist.library_parallel_partial",
    "Verif.PDFHist.switch_spec",
    "Verif.PDFHist.library_calculator",
    "Verif.PDFHist.library_regular",
    "Verif.PDFHist.api_quiet",
    "Verif.PDFHist.prof_shape",
    "Verif.PDFHist.msd_along",
    "Verif.PDFHist.exAniso_displaced",
    "Verif.PDFHist.tails_bound",
    "Verif.PDFHist.library_exists"
   ],
   "note": "false in full for tilted anisotropic displacements (C36 dw_max_bug, C62) and for Qbroad with bonds beyond the range (C36 jeong_tail_bug): left out, as are bonds of zero width (NaN of the cropped profile, C36) and negative constants; in crystals, displacements that are the same along a vector and its images under the operations (isotropic ones are); over exact reals"
  },
  {
   "property": "C91",
   "status": "partial",
   "theorems": [
    "Verif.DebyeHist.library_F_partial",
    "Verif.DebyeHist.library_fresh_partial",
    "Verif.DebyeHist.library_G_partial",
    "Verif.DebyeHist.library_debye_parallel_partial",
    "Verif.DebyeHist.library_debye",
    "Verif.DebyeHist.library_debye_regular",
    "Verif.DebyeHist.called_untainted",
    "Verif.DebyeHist.api_alike",
    "Verif.DebyeHist.debye_tails_bound",
    "Verif.DebyeHist.two_atoms_F",
    "Verif.DebyeHist.library_debye_exists",
    "Verif.DebyeHist.setRstep_bug"
   ],
   "note": "false in full: without the optimum Q step (C87 stale), for factors growing with Q (C56), tilted anisotropic displacements (C36, C62; with Qbroad the range covers the peaks of bonds within it only), after setStructure before a fast update (C12) and after setRstep before one (setRstep_bug: the bonds are removed in another range than they were added in); left out besides: rmin beyond the extension, Qmax*rmax at most 4 pi, fast updates of sites of unequal multiplicity with a precision cut"
  },
  {
   "property": "C92",
   "status": "partial",
   "theorems": [
    "Verif.Mask.mask_in_evaluation",
    "Verif.Mask.runs_maskOf",
    "Verif.Mask.mask_call_quiet",
    "Verif.Mask.runs_hasPairMask",
    "Verif.Mask.maskOf_comm",
    "Verif.Mask.maskOf_types",
    "Verif.Mask.no_conflict",
    "Verif.Mask.allmasks_agree",
    "Verif.PDFHist.masked_rdf_partial",
    "Verif.PDFHist.masked_pdf_partial",
    "Verif.PDFHist.masked_library",
    "Verif.PDFHist.masked_usual",
    "Verif.PDFHist.masked_called",
    "Verif.PDFHist.cache_masks",
    "Verif.PDFHist.masked_exists",
    "Verif.DebyeHist.masked_F_partial",
    "Verif.DebyeHist.masked_fresh_partial",
    "Verif.DebyeHist.masked_debye",
    "Verif.DebyeHist.masked_usual_debye",
    "Verif.DebyeHist.masked_debye_exists"
   ],
   "note": "false in full (C05, C06): setPairMask with an all-sites index, or after setTypeMask, keeps masks made for the sites of the last structure; contradicting all-type masks depend on the order of a hash container; and with the restrictions of C90 and C91"
  },
  {
   "property": "C93",
   "status": "partial",
   "theorems": [
    "Verif.PDFHist.stale_rdf_partial",
    "Verif.PDFHist.stale_pdf_partial",
    "Verif.PDFHist.stale_empty",
    "Verif.PDFHist.inside_sub",
    "Verif.PDFHist.outside_beyond",
    "Verif.PDFHist.configures_keep",
    "Verif.PDFHist.getRDF_after_setRstep_bug"
   ],
   "note": "false for other changes: a range beyond the extended range makes the getters erase outside of their arrays, after setRstep the old values appear under the new grid (both in the theorems), an empty range stays empty; with the restrictions of C86 and C88"
  },
  {
   "property": "C94",
   "status": "partial",
   "theorems": [
    "Verif.DebyeHist.stale_F_partial",
    "Verif.DebyeHist.stale_G_partial",
    "Verif.DebyeHist.quiet_settings",
    "Verif.DebyeHist.raised_qmax_bug",
    "Verif.DebyeHist.raised_rmax_bug",
    "Verif.DebyeHist.configures_keep"
   ],
   "note": "false for other changes: with fewer Q points the rest of F(Q) is returned without normalisation, with more (after raising Qmax or rmax) getF reads outside of its arrays, and so does getPDF for a grid beyond pi/Qstep (all in the theorems); with the restrictions of C87 and C89"
  },
  {
   "property": "C95",
   "status": "partial",
   "theorems": [
    "Verif.BVHist.sums_history_partial",
    "Verif.BVHist.sums_history",
    "Verif.BVHist.sums_parallel",
    "Verif.BVHist.settings",
    "Verif.BVHist.throw_unchanged",
    "Verif.BVHist.reads_after_settings",
    "Verif.BVHist.diffs_of_sums",
    "Verif.BVHist.symvals_order",
    "Verif.BVHist.siteAt_some",
    "Verif.BVHist.siteMult_eq",
    "Verif.BVHist.appended_atom_bug",
    "Verif.BVHist.late_valence_bug"
   ],
   "note": "sums_history is exact for all structures; in crystals with sites of different multiplicity the code weighs neighbours wrongly (C82), so that the English statement needs equal multiplicities; masks as in C92; parallel jobs visit the bonds in the same order; when the structure object gets more atoms after the evaluation the getters read past their arrays (appended_atom_bug), and valences() ignores later changes of the table (late_valence_bug)"
  },
  {
   "property": "C96",
   "status": "partial",
   "theorems": [
    "Verif.OlpHist.overlap_history",
    "Verif.OlpHist.neighborhoods_history",
    "Verif.OlpHist.overlap_parallel_partial",
    "Verif.OlpHist.settings",
    "Verif.OlpHist.throw_unchanged",
    "Verif.OlpHist.stored_results",
    "Verif.OlpHist.sites_spec",
    "Verif.OlpHist.radius_after",
    "Verif.OlpHist.query_before_merge_bug"
   ],
   "note": "one process: complete; neighborhoods() decides by the masks of the time of the query whether a site without overlaps is listed, which neighborhoods_history states; parallel: a neighbour query before the last merge makes the calculator forget the neighbours merged later (query_before_merge_bug); masks as in C92; parallel jobs visit the bonds in the same order; user tables whose lookup throws are not modelled"
  },
  {
   "property": "C97",
   "status": "partial",
   "theorems": [
    "Verif.Geo.same_sum",
    "Verif.Geo.same_sum_vec",
    "Verif.Geo.same_cluster",
    "Verif.Geo.same_periodic",
    "Verif.Geo.same_supercell",
    "Verif.Geo.same_expanded",
    "Verif.Geo.expanded_exists",
    "Verif.Geo.count_oneToOne",
    "Verif.Geo.count_supercell",
    "Verif.Geo.count_expanded",
    "Verif.BVHist.bvs_redescribed_partial",
    "Verif.OlpHist.overlap_redescribed",
    "Verif.PDFHist.rdf_redescribed_partial",
    "Verif.PDFHist.pdf_redescribed_partial",
    "Verif.PDFHist.density_same",
    "Verif.DebyeHist.debye_redescribed_partial",
    "Verif.DebyeHist.reset_same",
    "Verif.BondCalc.bonds_redescribed_partial"
   ],
   "note": "overlaps: complete; bond valence sums: sites of equal multiplicity (C80, else the sums of crystals are wrong) and lookups that do not depend on the order of the atoms; RDF, G(r), F(Q): the conditions of C90, anisotropic displacements that are the same along a vector and the moved vector, and in crystals along its images under the operations; Debye sum: those of C91, F(Q) up to the Debye precision of both evaluations; bond lists: without cones, histories of C16; masks that treat both descriptions alike (type masks do)"
  },
  {
   "property": "C98",
   "status": "partial",
   "theorems": [
    "Verif.Geo.divides_not",
    "Verif.Geo.divides_types",
    "Verif.PDFHist.rdf_parts",
    "Verif.PDFHist.pdf_parts",
    "Verif.PDFHist.library_parts_partial",
    "Verif.DebyeHist.debye_parts_partial",
    "Verif.BVHist.types_divide",
    "Verif.BVHist.onlyTypes_spec",
    "Verif.BVHist.sums_parts_partial",
    "Verif.OlpHist.overlap_parts",
    "Verif.BondCalc.bonds_parts_partial"
   ],
   "note": "overlaps: complete; histories as in C90, C91, C84, C95 (fast updates after calls that do not click the ticker are left out, because the code is wrong there); G(r) and F(Q) of the PDFCalculator with the cropped profile and zero or linear baselines; Debye sums up to twice the Debye precision, as each of the two is within the precision of the sum over all bonds"
  },
  {
   "property": "C99",
   "status": "partial",
   "theorems": [
    "Verif.PDFHist.rdf_amounts_partial",
    "Verif.PDFHist.pdf_amounts_partial",
    "Verif.PDFHist.struRDF_amounts",
    "Verif.PDFHist.exAmounts",
    "Verif.DebyeHist.debye_amounts_partial",
    "Verif.DebyeHist.struSum_amounts",
    "Verif.DebyeHist.exHalves_amounts",
    "Verif.BVHist.bvs_amounts_partial",
    "Verif.BVHist.goes_by_types",
    "Verif.BVHist.exSplit_amounts",
    "Verif.OlpHist.overlap_amounts"
   ],
   "note": "overlaps: complete; the others under the conditions of C90, C91 and C95 (fast updates after calls that do not click the ticker are left out, G(r) and F(Q) of the PDFCalculator with the cropped profile and zero or linear baselines); the extension of the range for the tails of peaks is taken over all atoms, so that the displacements of atoms without occupancy must not exceed those of the others, or the RDF is taken where this does not matter; bond valence sums: the same types in both, as the automatic cutoff is over all types, and equal multiplicities; Debye sums: up to twice the Debye precision, and only when the atoms of one type have one occupancy in each structure, because the code takes the occupancy of the first atom of a type for all (C44): in full the claim is false there"
  },
  {
   "property": "C100",
   "status": "partial",
   "theorems": [
    "Verif.BondCalc.bonds_range_partial",
    "Verif.PDFHist.rdf_range_partial",
    "Verif.PDFHist.window_whole",
    "Verif.PDFHist.unlimited_pdf_partial",
    "Verif.PDFHist.pdf_range_partial",
    "Verif.PDFHist.exLib_fits",
    "Verif.BVHist.cutoff_above",
    "Verif.BVHist.bvs_range_partial",
    "Verif.OlpHist.olp_above",
    "Verif.OlpHist.overlap_range"
   ],
   "note": "overlaps: complete; bonds under the conditions of C16 (one class of structures, fast updates only after calls that click the ticker); RDF and G(r) under those of C90, for ranges with enough room for ripples and tails in both (otherwise the code reduces the extension in proportion and peaks near the ends are lost: the claim is false there), not within one step of the lower end unless the extended range begins at zero, nor of the upper end unless peaks are cropped; bond valence sums under those of C95"
  },
  {
   "property": "C101",
   "status": "proved",
   "theorems": [
    "Verif.Queries.snapshot_values",
    "Verif.Queries.types_values",
    "Verif.Queries.square_values",
    "Verif.Queries.coordination_values",
    "Verif.Queries.total_value",
    "Verif.Queries.gradient_values",
    "Verif.Queries.neighbor_values",
    "Verif.Queries.byType_values",
    "Verif.Queries.flip_values",
    "Verif.Queries.bv_values",
    "Verif.Queries.bond_type_values",
    "Verif.Queries.exUndisturbed"
   ],
   "note": "neighbours, coordinations by types and exchanges are for calculators that were not asked for neighbours between two merges (otherwise C96 applies); overlapping bonds whose sites no longer exist are covered by C96"
  },
  {
   "property": "C102",
   "status": "partial",
   "theorems": [
    "Verif.CountHist.settings",
    "Verif.CountHist.counts_history",
    "Verif.CountHist.counts_partial",
    "Verif.CountHist.counts_cluster",
    "Verif.CountHist.counts_parallel",
    "Verif.CountHist.counts_parts",
    "Verif.CountHist.half_of_all",
    "Verif.CountHist.counted_from_later",
    "Verif.CountHist.throw_unchanged",
    "Verif.CountHist.setting_keeps"
   ],
   "note": "half of the number of neighbours only when all sites have the same multiplicity (finite and periodic structures); in crystals with sites of different multiplicities the pairs are counted from the later site (counts_history), so the number depends on the order of the sites (counted_from_later); the integer result drops the half of an odd number"
  },
  {
   "property": "C103",
   "status": "partial",
   "theorems": [
    "Verif.PDFHist.rdf_factors_partial",
    "Verif.PDFHist.pdf_factors_partial",
    "Verif.PDFHist.struRDF_factors",
    "Verif.PDFHist.dilute_spec",
    "Verif.PDFHist.same_diluted",
    "Verif.PDFHist.exDilute_stru",
    "Verif.DebyeHist.debye_factors_partial",
    "Verif.DebyeHist.struSum_factors",
    "Verif.DebyeHist.meanFactor_diluted",
    "Verif.BVHist.bvs_factors_partial",
    "Verif.OlpHist.overlap_factors"
   ],
   "note": "overlaps: complete; the others under the conditions of C99 (masks by types; G(r) and F(Q) of the PDFCalculator with the cropped profile and zero or linear baselines; bond valence sums with the same types of atoms in both structures; Debye sums up to the Debye precision of each and only when the atoms of one type have one occupancy in each structure, because the code takes the occupancy of the first atom of a type for all (C44): in full the claim is false there)"
  },
  {
   "property": "C104",
   "status": "proved",
   "theorems": [
    "Verif.Double.fl64_isDouble",
    "Verif.Double.fl64_mono",
    "Verif.Double.fl64_neg",
    "Verif.Double.epsEq_comm",
    "Verif.Double.epsEq_refl",
    "Verif.Double.epsEq_between",
    "Verif.Double.epsLt_irrefl",
    "Verif.Double.epsLt_trans",
    "Verif.Double.epsGt_trans",
    "Verif.Double.epsLt_not_gt",
    "Verif.Double.epsLt_lt",
    "Verif.Double.epsGt_gt",
    "Verif.Double.compare_grid",
    "Verif.Double.compare_rounded",
    "Verif.Double.none_holds_bug",
    "Verif.Double.both_hold_bug",
    "Verif.Double.lt_not_gt_bug",
    "Verif.Double.wrap_range",
    "Verif.Double.wrap_idem",
    "Verif.Double.wrap_shift",
    "Verif.Double.wrap_near",
    "Verif.Double.wrap_exact",
    "Verif.Double.fract_one"
   ],
   "note": "that exactly one of the three relations holds is false for doubles in general: adjacent doubles above 2^27 satisfy none (none_holds_bug), others two (both_hold_bug), and less is not the reverse of greater (lt_not_gt_bug); the exponent range of doubles is unbounded in the model, NaN and infinities are not modelled"
  },
  {
   "property": "C105",
   "status": "proved",
   "theorems": [
    "Verif.Threads.click_newest",
    "Verif.Threads.serial_newest",
    "Verif.Threads.serial_idle",
    "Verif.Threads.uninterrupted_inv",
    "Verif.Threads.clicks_run",
    "Verif.Threads.lost_click_bug"
   ],
   "note": "the code has no lock: an increment that is interrupted between load and store sets the counter back by any number of clicks, and the next change is older than a value calculated before it (lost_click_bug); the model gives each step the result of all earlier ones, the counter does not overflow"
  },
  {
   "property": "C106",
   "status": "proved",
   "theorems": [
    "Verif.Double.tabulated_iff",
    "Verif.Double.cosdF_exact",
    "Verif.Double.cosdF_generic",
    "Verif.Double.cosdF_even",
    "Verif.Double.cosdF_range",
    "Verif.Double.radians_near",
    "Verif.Double.cosdF_near",
    "Verif.Double.sindF_near",
    "Verif.Double.sindF_exact",
    "Verif.Double.sindF_tiny_bug",
    "Verif.Double.acosd_real",
    "Verif.Double.acosdF_near",
    "Verif.Double.libraries_exist"
   ],
   "note": "the error of the sine is absolute: the sine of angles up to 2^-48 degrees is exactly zero (sindF_tiny_bug); asind is wrong already over the reals (C40); overflow, NaN and infinities are not modelled"
  },
  {
   "property": "C107",
   "status": "proved",
   "theorems": [
    "Verif.Double.right_angles",
    "Verif.Double.twice_near",
    "Verif.Double.right_cartesian",
    "Verif.Double.right_symmetric",
    "Verif.Double.right_volume",
    "Verif.Double.standard_orientation",
    "Verif.Double.general_cartesian",
    "Verif.Double.volumeNormal_cells",
    "Verif.Double.exact_gram",
    "Verif.Double.exact_volume",
    "Verif.Double.exact_reciprocal",
    "Verif.Double.reciprocal_sines",
    "Verif.Double.roots_exists",
    "Verif.Double.twice_pow",
    "Verif.Double.cube_bug"
   ],
   "note": "the first edge is the reciprocal of the reciprocal and need not be exact: in a cube with edge 49 the point (1,0,0) is farther from the origin than (0,1,0) (cube_bug); fractional coordinates use the inverse by GSL, which is not modelled in doubles; overflow, NaN and the sign of zero are not modelled"
  },
  {
   "property": "C108",
   "status": "proved",
   "theorems": [
    "Verif.Double.fl64_cell",
    "Verif.Double.sqrt_square",
    "Verif.Double.sqrt_one",
    "Verif.Double.normalized",
    "Verif.Double.sqrt_sq",
    "Verif.Double.sqrt_near",
    "Verif.Double.distance_comm",
    "Verif.Double.distance_axis",
    "Verif.Double.dot_near",
    "Verif.Double.distance_near",
    "Verif.Double.distance_zero_iff",
    "Verif.Double.base_right_angles",
    "Verif.Double.reset_changes_bug",
    "Verif.Double.sqrt_exists"
   ],
   "note": "setting a lattice to its own edges and angles can change its base vectors (reset_changes_bug); overflow, underflow, NaN and the sign of zero are not modelled, so that distances below 2^-537 do not become zero as in the program"
  },
  {
   "property": "C109",
   "status": "proved",
   "theorems": [
    "Verif.Double.sqrt_mono",
    "Verif.Double.norm_ge_component",
    "Verif.Double.updateDistance_cases",
    "Verif.Double.bond_kept_iff",
    "Verif.Double.bond_kept_comm",
    "Verif.Double.bond_kept_real",
    "Verif.Double.image_second_edge",
    "Verif.Double.image_first_edge",
    "Verif.Double.neighbours_bug",
    "Verif.Double.image_rounding_bug"
   ],
   "note": "within the margin equal distances can be treated differently: in a cube with edge 49 an atom at the origin has its images along the second edge but not along the first for neighbours within 49 (neighbours_bug); the enumeration of the cells is C18 over the reals"
  },
  {
   "property": "C110",
   "status": "proved",
   "theorems": [
    "Verif.Double.edges_pos",
    "Verif.Double.diag_apply",
    "Verif.Double.right_base",
    "Verif.Double.cart_eq",
    "Verif.Double.frac_eq",
    "Verif.Double.product_near",
    "Verif.Double.round_trip",
    "Verif.Double.ucv_range",
    "Verif.Double.ucv_near",
    "Verif.Double.right_exists"
   ],
   "note": "GSL's inverse of a diagonal matrix is assumed to hold the rounded reciprocals (InvDiag); overflow and underflow are not modelled"
  },
  {
   "property": "C111",
   "status": "proved",
   "theorems": [
    "Verif.BVEqual.param_eq_iff",
    "Verif.BVEqual.param_eq_equiv",
    "Verif.BVEqual.bond_equal_iff",
    "Verif.BVEqual.bond_of_eq",
    "Verif.BVEqual.hash_of_bond",
    "Verif.BVEqual.find_bond",
    "Verif.BVEqual.find_unique",
    "Verif.BVEqual.make_order",
    "Verif.BVEqual.make_comm",
    "Verif.BVEqual.same_valence_order"
   ],
   "note": "a parameter set for atoms of equal valence is not found when the atoms are given in the other order (same_valence_order)"
  }
 ]
}