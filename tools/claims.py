T = "Verif.Ticker."
def t(ns, names): return " ".join(ns + n for n in names.split())
c("C01", "proved", t(T, "ticker_total_order ticker_trichotomy ticker_never_ahead ticker_click_newest ticker_updateFrom_max"))
c("C02", "proved", t(T, "ticker_load_not_ahead ticker_load_order ticker_load_order_needs_same_clock"),
  "order is preserved for tickers saved with one archived clock; the witness shows it can invert across different archived clocks")
M = "Verif.Mask."
c("C03", "proved", t(M, "mask_symmetric mask_setPair mask_setSiteAll mask_all mask_hasMask_false mask_setPair_survives_structure mask_siteAll_lost_on_structure"),
  "read-back, symmetry and frame proved for every state; the site-all form is not preserved by setStructure when another site-all mask contradicts it (witness mask_siteAll_lost_on_structure)")
c("C04", "proved", t(M, "mask_all mask_invert mask_invert_structure"))
c("C05", "partial", t(M, "mask_types_partial mask_by_types pairmask_seen getTypeMask_symmetric mask_types_order_dependent getTypeMask_not_symmetric siteAll_in_evaluation"),
  "proved for all type masks without contradicting 'all' masks; false otherwise (witnesses)")
c("C06", "partial", t(M, "mask_change_clicks_partial quiet_later quiet_data mask_repeat mask_change_without_click typemask_change_without_click"),
  "proved for histories without contradicting 'all' masks; false otherwise (witnesses)")
E_ = "Verif.Eval."
c("C07", "proved", t(E_, "parallel_basic_partition parallel_fast_partition parallel_merge_value basic_serial_spec"))
c("C08", "proved", t(E_, "basic_value half_sum_eq_full_sum half_sum_needs_symmetry"))
c("C11", "proved", t(E_, "fast_update_sideBySide fast_update_sorted fast_update_parallel") + " Verif.Diff.fast_update_of_diff")
D_ = "Verif.Diff."
c("C09", "proved", t(D_, "diff_sideBySide diff_sideBySide_rest diff_equal atom_order allowsFast_iff_real diff_none diff_crystal"))
c("C10", "proved", t(D_, "diff_sorted"))
B_ = "Verif.BondGen."
c("C14", "proved", t(B_, "base_loop_exact base_loop_sites base_loop_data base_loop_genSpec"),
  "distances over the reals; 'not zero' is the code's tolerance d > 2^-26, so distinct sites closer than that are skipped too")
L_ = "Verif.Lattice."
c("C30", "proved", t(L_, "cartesian_fractional lattice_isometry baserot_isometry parameters_of_base cartesianMatrix_fractionalMatrix setLatPar_self"),
  "for every lattice reachable by successful calls with valid parameters, over the reals")
c("C31", "proved", t(L_, "ucvFractional_range ucvFractional_shift ucvFractional_idem ucvFractional_periodic ucvCartesian_translation ucvFractional_not_exact"),
  "the translation is exact unless a coordinate lies within 2^-26 below an integer (stated; witness included)")
c("C32", "partial", t(L_, "setLatBase_failure_corrupts setLatBase_failure_partial setLatPar_recovers setLatBase_accepts"),
  "false as stated: a throwing setLatBase has already overwritten the base (setLatBase_failure_corrupts); proved: only the base changes and setLatPar restores the lattice")
c("C33", "proved", t(L_, "ucMaxDiagonal_bounds ucMaxDiagonal_bounds_strict"))
U_ = "Verif.MathUtils."
c("C40", "partial", t(U_, "cosd_eq_cos sind_eq_sin cosd_exact acosd_eq_arccos asind_tabulated_partial asind_elsewhere_is_acosd asind_wrong eps_trichotomy eps_laws eps_eq_not_transitive seqEqual_not_less seqLess_total seqLess_iff seqLess_asymm seqEqual_iff"),
  "cosd, sind, acosd and the comparisons proved; asind is wrong in the code except at its five tabulated arguments (asind_wrong)")
P_ = "Verif.Points."
c("C18", "proved", t(P_, "sphere_visits_iff spacing_visits_iff sphere_extra_entry sphere_terminates sphere_nodup sphere_complete sphere_sound_partial sphere_exact_partial sphere_exact_full reflections_complete create_proper reciprocal_proper radius_sq sphere_inner_boundary_bug copy_never_ends_bug copy_moves_source_bug copy_frozen_next copy_frozen_rewind finished_copy_moves_source"),
  "sphere_visits_iff is the exact visited set; the shell of the header comment is false when a line along c enters the hole at a lattice point (sphere_inner_boundary_bug)")
Q_ = "Verif.Periodic."
c("C15", "proved", t(Q_, "periodic_bonds_exact periodic_bonds_user periodic_bonds_unique sphere_current sphere_covers radius_eq_norm"),
  "composed with the model of PointsInSphere, so no assumption on the iterator is left; 'zero distance' is the code's tolerance 2^-26")
X_ = "Verif.Crystal."
c("C34", "partial", t(X_, "expand_partial expand_exact_positions expand_average_bug multiplicity_current_partial multiplicity_current_count_partial multiplicity_stale_bug"),
  "one representative per class and positions exact unless a class straddles the cell boundary; false then (expand_average_bug); the cache is current unless atoms or lattice are edited in place after a query (multiplicity_stale_bug)")
c("C46", "proved", t(X_, "crystal_bonds_exact crystal_p1_bug"),
  "proved for at least one symmetry operation; false with none for atoms outside the cell (crystal_p1_bug)")
H_ = "Verif.History."
c("C12", "partial", t(H_, "history_value_partial history_result_partial full_eval_value full_eval_clears basic_history atomic_lawful exCalc_lawful setStructure_breaks_optimized setupParallel_breaks_optimized check_throws_in_parallel"),
  "proved for every history in which a public setStructure or a throwing OPTIMIZED evaluation that could be followed by a fast update is followed by a ticker click, an evaluator switch or a full evaluation instead, with a fixed CPU assignment; a full evaluation is right after any history; false otherwise (witnesses)")
c("C13", "partial", t(H_, "failed_eval_recovers_partial failed_evals_harmless full_eval_value failed_eval_basic failed_eval_breaks_optimized failed_eval_check_throws"),
  "proved for BASIC evaluation; for OPTIMIZED and CHECK when nothing has been evaluated since the last change of configuration or evaluator, when the failure is followed by such a change, and when the next evaluation is done in full; false when a fast update fails (witness)")
R_ = "Verif.Protocol."
c("C38", "proved", t(R_, "merge_error merge_ok merge_all_ok merge_order merge_surplus gather_values"))
c("C39", "proved", t(R_, "switch_error switch_accepts switch_keeps switch_history reported_type flag_read_back setup_parallel"))
K_ = "Verif.BondCalc."
c("C16", "partial", t(K_, "compare_lex compare_total bmerge_correct bonds_history_partial bond_history_partial atomic_blawful exCls_lawful parallel_bonds single_job_sends_nothing check_throws check_throws_iff parallel_fast_update_loses_bonds"),
  "proved for serial histories (as in C12, evaluators BASIC and OPTIMIZED) and for merging two or more jobs that evaluate in full; false for a single job, for fast updates in parallel jobs, and the CHECK evaluator throws on every fast update (witnesses)")
c("C17", "proved", t(K_, "cone_filter_correct cone_180 cone_rejects cone_off"), "over the reals")

G_ = "Verif.PDFGrid."
c("C27", "proved", t(G_, "rgrid_exact rgrid_spacing calc_range rescaled_spec"), "exact arithmetic in any ordered field with floor")
c("C28", "proved", t(G_, "restore_spec restore_zero"))
c("C29", "proved", t(G_, "getRDF_spec getRDFperR_spec getPDF_spec evaluated_fresh fast_fresh getRDF_after_setRmax_bug"),
  "proved for a calculator whose range has not been changed since the last evaluation; false after setRmax without re-evaluation (getRDF_after_setRmax_bug)")
c("C47", "proved", t(G_, "value_error value_complete rdf_complete first_point_bug"),
  "error bound and exactness proved except that a bond touching only the first grid point may be dropped because the lower calculation limit is rounded up (first_point_bug)")
c("C48", "proved", t(G_, "fast_rdf_eq_basic fast_value_differs"),
  "RDF equal for profiles that vanish at their bounds; the raw value() may differ outside the RDF range (fast_value_differs)")
F_ = "Verif.Fft."
c("C49", "proved", t(F_, "fftgtof_spec fft_roundtrip"), "GSL's radix-2 FFT taken by its specification, over the reals")
c("C50", "proved", t(G_, "qgrid_exact qgrid_none") + " " + t(F_, "fourier_branch getPDF_length getF_length extendedG_spec full_window fourier_example"),
  "assuming a Q-step above 2^-26")
A_ = "Verif.Attr."
c("C21", "proved", t(A_, "get_ok get_error set_spec set_failed get_after_set names_spec attr_map calculator_names_unique"),
  "the map law attr_map is for attributes that do not share storage; aliases of one quantity (width/uisowidth/bisowidth) are converted views of each other")
G2_ = "Verif.Registry."
c("C22", "proved", t(G2_, "registry_refines call_results step_results deregister_spec listing_spec sft_register_spec sft_register_bug"),
  "proved for HasClassRegistry; false for ScatteringFactorTable::registerThisType, where a failing alias leaves the type registered (sft_register_bug)")
T2_ = "Verif.Tables."
c("C23", "proved", t(T2_, "fromString_spec fromString_failed text_split lookup_history roundtrip_rounded roundtrip toString_sorted"),
  "number parsing and printing are parameters; the round trip is proved for radii that survive printing and symbols without separators")
c("C26", "proved", t(T2_, "sft_lookup_history sft_click sft_custom_value"), "the standard tables are a parameter")
A2_ = "Verif.AtomUtils."
c("C37", "proved", t(A2_, "bare_spec trimmed_unique bare_not_idempotent valence_spec valence_zero valence_spaces valence_bound symbol_roundtrip"),
  "proved for every symbol with a character that is neither a prefix nor a suffix character; false for strings such as '9 +' (bare_not_idempotent)")
B2_ = "Verif.BV."
c("C24", "partial", t(B2_, "valence_distance_inverse valence_at_Ro valence_blank lookup_priority lookup_source lookup_symmetric_partial lookup_asymmetric_bug lookup_symbols table_history getAll_spec"),
  "inverse, priority and history proved; order independence of lookup is false for different atoms of equal valence (lookup_asymmetric_bug)")
c("C25", "partial", t(B2_, "bvs_value_partial bvs_multiplicity_bug cutoff_partial cutoff_error_partial bvmsdiff_spec"),
  "proved when every bond has its counterpart and parameters do not depend on atom order; false for symmetric crystals with sites of unequal multiplicity (bvs_multiplicity_bug, e.g. fluorite)")
O_ = "Verif.Overlap."
c("C19", "proved", t(O_, "queries_spec siteSquareOverlaps_spec totalSquareOverlap_spec means_spec flipDiffTotal_spec flipDiffTotal_laws maxSeparation_swap cacheOK_fresh cacheOK_filled cacheOK_reload coordinations_spec coordinationByTypes_spec getNeighborSites_spec parallel_overlap exTrace_balanced"),
  "for bond lists in which every bond has its counterpart from the other end (Balanced), as every complete evaluation without one-sided masks produces")
c("C20", "proved", t(O_, "neighborhoods_components neighborhoods_spec"))
c("C51", "partial", t(O_, "total_is_energy gradients_correct_partial gradients_ignore_occupancy_bug gradients_spec periodic_gradients_partial"),
  "proved for finite and periodic fully occupied structures; false with partial occupancies, which gradients() ignores (gradients_ignore_occupancy_bug)")
c("C52", "partial", t(O_, "cacheOK_reload reload_doubles_bug"),
  "the overlap queries through the neighbour cache survive a reload (cacheOK_reload); coordinationByTypes is doubled after a reload of a queried calculator (reload_doubles_bug)")
E2_ = "Verif.Envelope."
c("C35", "proved", t(E2_, "owner_history failed_calls types_spec apply_spec apply_order add_pop baseline_spec spherical_spec spherical_off spherical_volume stepCut_spec qResolution_spec"))
P2_ = "Verif.Peak."
c("C36", "partial", t(P2_, "precision_history gauss_spec gauss_bounds cropped_spec cropped_nan_bug gauss_within cropped_bounded gauss_value_error msd_spec maxUii_spec dw_max_partial dw_max_sqrt3 dw_max_bug jeong_max_partial jeong_interior_bug jeong_rmin_zero_bug jeong_tail_bug constant_spec"),
  "profiles proved (over the reals, GSL's erf by its definition) except NaN at zero width (cropped_nan_bug); maxWidth bounds the widths for isotropic or axis-aligned displacements and regular Jeong parameters, and is false otherwise (dw_max_bug, jeong_interior_bug, jeong_rmin_zero_bug, jeong_tail_bug)")
L3_ = "Verif.LineReader."
c("C41", "proved", t(L3_, "reading_spec fields_spec fields_unique words_spec tokens_unique classify_words classify_fields"))
c("C53", "proved", t(L3_, "table_spec electron_ion electron_short electron_spelling table_stays load_ok_iff failed_load_bug"),
  "proved for successful loads; a failed first load leaves an incomplete table that later calls use silently (failed_load_bug)")
c("C54", "proved", t("Verif.Mask.", "typemask_pair typemask_one_all typemask_all_all typemask_last"),
  "'ALL' is accepted by setTypeMask but not by getTypeMask, so the queries range over type names other than 'all'")
W_ = "Verif.Wrappers."
c("C42", "proved", t(W_, "wrapper_sites wrapper_symmetry wrapper_meta wrapper_idempotent wrapper_factory wrapper_clone wrapper_clone_deep wrapper_diff wrapper_diff_sound"),
  "wrappers made by the default constructor (null source) are left out")
c("C43", "proved", t(W_, "pairCount_spec pairCount_all pairCount_general pairCount_parallel totalOccupancy_spec totalOccupancy_expanded density_spec density_supercell"),
  "the OPTIMIZED evaluator rejects PairCounter, which defines no stashPartialValue; for periodic structures pairCount_general assumes that bonds of a site with its own images come in opposite pairs")
c("C55", "partial", t("Verif.KindDiff.", "diff_kind_partial kind_lawful_partial diff_kind_down diff_kind_bug fast_update_kind_bug"),
  "proved for structures of one class; false between a finite and a periodic structure, or a periodic structure and a crystal, with the same atoms: diff() of the base class reports them as equal and the fast update keeps the old value (fast_update_kind_bug)")
D2_ = "Verif.Debye."
c("C44", "partial", t(D2_, "sf_first sf_occupancy_partial sf_occupancy_bug sf_base"),
  "false in general: the calculator keeps one scattering factor per atom type, that of the first site of the type with its occupancy (sf_first, sf_occupancy_bug); true when sites of one type have equal occupancies (sf_occupancy_partial)")
c("C56", "partial", t(D2_, "debye_exact debye_error debye_base_error debye_pdf_error_partial value_get sfAverage_get getF_normalized value_below_qmin premature_break premature_break_example getF_stale_bug"),
  "exact when no term is below the precision; the error bound is proved for factors whose product decreases with Q, since the loop over Q stops at the first small term (premature_break_example); getF after a change of the Q range without evaluation leaves its arrays (getF_stale_bug)")
S4_ = "Verif.Setters."
c("C45", "partial", t(S4_, "p_setters p_good p_noclick p_noclick_range p_setQmax_bug d_good dnew_good d_tracked d_reject d_late_throw setQmax_zero_bug setRstep_untracked") + " " + t("Verif.History.", "unchanged_keeps_value stale_without_click"),
  "proved for the setters of PDFCalculator and DebyePDFCalculator except: PDFCalculator setQmax from a negligible to a usable value changes the range without a click (p_setQmax_bug), DebyePDFCalculator setQmax(0) throws after changing the state (d_late_throw, setQmax_zero_bug) and setRstep changes the range without a click (setRstep_untracked)")
c("C57", "partial", t(S4_, "reset_range reset_stable extended_covers debye_default setQstep_spec setRmax_opt reset_parts reset_custom history_dependence_bug"),
  "coverage, Q step and stability are proved; that the range depends only on parameters and structure is false, it keeps the limits of earlier calls (history_dependence_bug)")
c("C58", "partial", t(D2_, "debye_pdf debye_pdf_partial sinePDF_node padF_spec gpad_spec interp_edge_bug"),
  "proved for the transform and interpolation wherever both interpolation nodes are in the array; at the last node the code reads one element past the end with weight zero (interp_edge_bug)")
P9_ = "Verif.PDFCache."
c("C59", "proved", t(P9_, "sfSite_spec rdfScale_spec activeocc_spec slope_spec activeFraction_laws"),
  "a symbol without scattering factor makes the code throw; lookups are total in the model")
c("C60", "proved", t(P9_, "rdf_finite rdf_cropped rdf_gauss pdf_finite rdf_periodic jeong_even periodicGen_exists evalGen_eq"),
  "grid points less than one step above the lower end of the extended range are left out, there the code can miss a bond (C47); the range extension must fit maxextension; structures with symmetry (CrystalStructureAdapter) are covered by evalGen_eq only under the symmetry of their bond sums; the Q window is in C49/C50")
c("C61", "proved", t(P9_, "rdf_crystal rdf_orbits orbit_eq spaceGroup_sym orbit_mult orbit_balance crystalGen_exists"),
  "proved for crystals whose operations form a space group, with images that coincide within the precision coinciding exactly (otherwise positions are averaged, C34) and away from the rounding of coordinates just below 1; grid points less than one step above the lower end of the extended range are left out (C47)")
c("C62", "partial", t(P9_, "image_msd crystal_msd rdf_tensor ucartesian1_spec identity_first_bug unbalanced_bug"),
  "proved when the first operation is the identity and no operation mixes axes of different reciprocal lengths; both conditions are needed: the anchor of a bond uses the tensor of the untransformed atom (identity_first_bug) and R U R^T is formed in normalised coordinates (unbalanced_bug)")
c("C63", "proved", t("Verif.Composite.", "change_detected no_spurious calls_effect assign_untracked") + " " + t("Verif.History.", "stale_without_click"),
  "proved for every call of the C++ interface except assignment to the reference that getPeakWidthModel() returns, which replaces the model without a click (assign_untracked)")
c("C64", "partial", t("Verif.Copies.", "unshared_independent copy_same members_independent basic_copies_partial copy_detached copy_optimized_bug copy_parallel_bug"),
  "proved for BASIC evaluation and for calculators that do not share an evaluator (e.g. after choosing another evaluator type for the copy); false for OPTIMIZED evaluation and parallel setup of a plain copy, which shares the evaluator object (copy_optimized_bug, copy_parallel_bug)")
c("C65", "partial", t("Verif.Reload.", "reload_exact reload_history_partial reload_members save_check_bug save_ok load_outdated loadTick_spec reload_ctl"),
  "calculators with the CHECK evaluator cannot be saved (save_check_bug); the last used evaluator type is not restored; when the process clicks while the archive is being loaded only the histories of C12 are proved; the byte format of boost archives is not modelled")
c("C66", "proved", t("Verif.ObjCryst.", "fetch_spec crystal_atoms molecule_atoms crystal_orbit crystal_rdf fetch_general first_translation_bug act_shift act_invert"),
  "ObjCryst objects are inputs (what their accessors return); images and RDF (crystal_orbit, crystal_rdf) under the conditions of C61/C62; a list of translations that does not start with zero gives wrong operations (first_translation_bug)")
c("C67", "proved", t("Verif.ScatData.", "xray_formula xray_even xray_zero xray_monotone electron_formula electron_bound findWK_spec findWK_short load_file wk_file xray_file wk_stays load_rejects fxray_spec felectron_spec findWK_multi_bug wk_failed_load_bug"),
  "formatted input of numbers is a parameter of the general theorems and that of C81 in wk_file and xray_file; ions of isotopes with a charge above one are not found (findWK_multi_bug); after a failed load the incomplete set is used silently (wk_failed_load_bug); when the coefficients do not add up to a whole number the electron factor grows as 1/Q^2")
c("C68", "proved", t("Verif.ScatData.", "rowName_spec bc_table bc_ok bc_file loadBC_rows addRow_spec bc_charge mass_suffix_bug"),
  "formatted input of numbers is a parameter of the general theorems and that of C81 in bc_file; a mass number at the end of the symbol, as in the data file, is taken for a charge and dropped: H-2 has the length of H (mass_suffix_bug); an isotope row with an empty half-life reads before the start of an empty string, which the model takes as no match; failed loads as in C53")
c("C69", "proved", t("Verif.Rounding.", "rounding_drift control_unchanged optimized_drift basic_work merge_drift parallel_drift compare_spec compare_iff check_negative_bug drift_stays step_exact run_exact"),
  "the tolerance of the CHECK evaluator is taken from the largest signed value: for values that are all below -1 it reports differences that are within the relative tolerance (check_negative_bug); the drift bound is attained in the sense that the error of a removed large contribution stays in the OPTIMIZED value (drift_stays); contributions themselves are compared as computed, overflow and underflow are not modelled")
c("C70", "proved", t("Verif.Double.", "fl64_rounds fl64_exact rmin_rounded rmin_multiple rgrid_rounded rmax_bug"),
  "proved up to the tolerance at both ends; that rmax itself is excluded is false in doubles when rmax is a multiple of the step, there is no tolerance at the upper end (rmax_bug); exponent range of doubles is unbounded in the model")
c("C71", "proved", t("Verif.Buffers.", "nested_calls copied_results kept_reference distance_two latDistance_two matrix_call matrix_nested setLatBase_references same_function_bug product_twice_bug permute_bug getQmax_bug"),
  "the conditions are needed: the distance of two results of one function is always 0 (same_function_bug), a product applied to its own result is wrong (product_twice_bug), L.setLatBase(L.vb(), L.vc(), L.va()) silently stores an inconsistent lattice (permute_bug), references from getQmax of two calculators are the same object (getQmax_bug)")
c("C72", "proved", t("Verif.InPlace.", "edits_noticed edits_noticed_partial live_edits_noticed refines_values calls_leave_structures current_structure live_optimized_bug"),
  "for fast evaluators and programs that also fail or call setStructure the theorem needs the taint condition of C12 (edits_noticed_partial); edits do not happen while a call runs; clones are deep, so adapters whose symmetry caches go stale after in-place edits (C37) are outside")
c("C73", "proved", t("Verif.Equality.", "atom_eq_iff atom_eq_equiv atom_eq_nan atom_hash vec_mat_hash atom_lt_iff atom_order order_nan_bug eqAtomic_iff eqPeriodic_iff eqCrystal_iff eq_self_copy eq_structures_equiv equal_periodic_same equal_crystals_same eq_ignores_precision_bug") + " " + t("Verif.Lattice.", "equal_lattices"),
  "double with NaN, infinities and signed zeros; with NaN the order of atoms is not one that std::sort accepts (order_nan_bug); the symmetry precision is not compared (eq_ignores_precision_bug)")
c("C74", "proved", t("Verif.Archive.", "structures_restored tables_restored components_restored pdf_restored debye_restored bonds_restored bvs_restored overlap_restored structure_saves pq_saves pdf_saves replace_saves replace_restores newer_rejected bvtable_version0 debye_version0 truncated_corrupts_bug"),
  "archive = list of items; byte format and object tracking of boost are trusted; a failed load leaves the target half loaded (truncated_corrupts_bug); the recipe replacePairQuantityStructure for structures without exported class fails when an OPTIMIZED evaluator holds a copy of such a structure (replace_saves); consequences of the neighbor list mark are in C52, of tickers in another process in C65")
c("C75", "proved", t("Verif.RtPath.", "trim_spec resolves_unique datapath_pure answer_sound env_sticky env_looks lib_sticky lib_looks race_bug race_crash_bug"),
  "the answers of stat, realpath, dirname and dladdr are inputs; when the file system changes within one call the answer can be an empty directory (race_bug) or a string made from a null pointer (race_crash_bug); threads are not modelled")
c("C76", "proved", t("Verif.Queries.", "snapshot_queries safe_iff byTypes_safe_iff flip_safe after_eval_safe grown_safe flip_grown_bug queries_independent neighbors_complete query_between_merges_bug bvs_safe_iff bond_types_safe_iff mean_value"),
  "exact conditions; outside them the code reads outside arrays (flip_grown_bug for an added atom, the converse directions of safe_iff for erased atoms, of bvs_safe_iff for added ones); a neighbour query between two merges of parallel data hides the bonds merged later (query_between_merges_bug)")
c("C77", "proved", t("Verif.Components.", "new_defaults set_effect set_get readable_iff_settable width_views others_untouched last_setting_wins clone_create same_settings_same_behaviour value_formula ticker_iff_changed registered"),
  "over real numbers; the contents of radii and scattering factor tables are C23 and C26")
c("C78", "proved", t("Verif.GenObj.", "settings_after_any_history loop_after_any_history abandoned_loops_do_not_matter configuration_ends_loop finished_stays valid_sites_never_fail no_bonds_without_rmax range_fixed_at_creation unselected_anchor_bug unselected_anchor_witness stale_anchor_bug periodic_loop_after_any_history periodic_points_current periodic_object_bonds periodic_loops_never_fail periodic_positions_frozen_bug periodic_lattice_edit_bug limit_change_inside_loop_bug selection_inside_loop_continues_bug new_generator_finished crystal_loop_after_any_history crystal_points_current crystal_object_bonds crystal_ucartesian1_valid crystal_loops_never_fail crystal_stopped_loop_never_fails second_generator_inside_loop_bug crystal_next_when_finished_bug crystal_configuration_inside_loop_bug"),
  "over real numbers; the _bug theorems state the traps: an unselected anchor is site 0 placed at the origin, a moved anchor or a changed lattice is not noticed, and in a periodic generator a limit changed inside a loop makes next() use a null pointer while a selection made inside a loop does not end it; for a crystal, next() on a finished generator is out of bounds, and a second generator created inside a loop leaves Ucartesian1() of the first dangling")
c("C79", "proved", t("Verif.Edits.", "edit_positions edit_allowed edits_length edits_card sorted_diff_minimal edits_bound_difference small_edits_allow_fast_update reordered_allows_fast_update append_only_difference writes_difference"),
  "iterators are offsets; coordinates without NaN (see C80)")
c("C80", "partial", t("Verif.NanDiff.", "atoms_equal_iff without_nan sideBySide_lists_nan copy_with_nan sorted_pairs moved_to_nan_not_noticed_bug empty_difference_keeps_result incomparable_not_transitive_bug"),
  "the part about sorted differences is false: unlisted sites form pairs that the order cannot tell apart (sorted_pairs), and with NaN these need not be equal; for a single atom the change is always missed (moved_to_nan_not_noticed_bug) and the fast update then makes no calls")
c("C81", "partial", t("Verif.Input.", "int_word int_fails double_word double_fails ion_line wk_line bc_field ion_file") + " " + t("Verif.ScatData.", "wk_file bc_file") + " " + t("Verif.BVFile.", "cif_line cif_line_rejected setFromCifLine_spec standard_table file_entry_found table_stays failed_load_bug missing_file_bug no_mark_bug glued_words_accepted_bug"),
  "false in part: after a failed load the next call returns what was read so far (failed_load_bug, missing_file_bug), a file without the header mark gives an empty table (no_mark_bug), and numbers may run into the next word (glued_words_accepted_bug). Formatted input as in libstdc++, without subnormal numbers")
c("C82", "partial", t("Verif.BV.", "half_exact finite_sums periodic_sums crystal_sums crystal_sums_equal_partial dropped_neighbours_partial crystal_sums_bug caf_neighbours"),
  "exact formula for all three kinds of structures; for crystals with different multiplicities it is not the bond valence sum (crystal_sums_bug), crystal_sums_equal_partial is the case of equal multiplicities. dropped_neighbours_partial assumes parameters that do not depend on the order of the atoms and no entry for blank atoms")
c("C83", "partial", t("Verif.Overlap.", "site_square_overlaps site_coordinations total_square_overlap limits_irrelevant neighbour_sites coordination_by_types flip_difference neighborhoods_end_to_end periodic_gradients_partial crystal_gradient_zero crystal_gradient_bug") + " " + t("Verif.Geo.", "gen_exists delivers range_finite balance"),
  "values, coordinations, neighbours, flips and neighborhoods proved for all three kinds of structures; gradients only for fully occupied periodic structures (periodic_gradients_partial) and finite ones (C51): false for partial occupancies (C51) and for crystals (crystal_gradient_zero, crystal_gradient_bug: one set of atoms, described with and without symmetry, has different gradients)")
c("C84", "proved", t("Verif.BondCalc.", "bond_list bond_parallel lists_agree reverse_listed calculator_exists") + " " + t("Verif.Geo.", "vecs_spec gen_vecs trace_vecs atomic_vectors periodic_vectors crystal_vectors"),
  "over exact reals; the history of fast updates is C16 (bond_history_partial)")
c("C85", "partial", t("Verif.Debye.", "debye_F_partial debye_F_exact_partial reciprocal_distance reciprocal_even reciprocal_crystal crystal_widths trace_length"),
  "for atoms whose occupancy is the same for each type and factors that do not grow with Q in absolute value (both needed, see C44 and C56); over exact reals")
c("C86", "proved", t("Verif.PDFHist.", "rdf_history rdf_history_cropped rdf_parallel drawn_cropped counted_fits calculator_exists setter_quiet"),
  "over exact reals; configuration calls must click the ticker unless they only shrink the termination ripples (setQmax upwards does not click, PDFCalculator.cpp:279; by setter_quiet every accepted numeric setter is of one of the two kinds when Qmax is above 2^-26), and a setStructure call under a fast evaluator must be followed by a clicking call or a change of evaluator (C12); with the CHECK evaluator an evaluation can throw although the result is right (`fast_value_differs`, C47), the state is as stated")
c("C87", "partial", t("Verif.DebyeHist.", "F_history_partial fresh_history_partial F_parallel_partial steady_of calculator_exists stale_range_bug setRstep_bug"),
  "false in full: resetValue changes the range without a click unless the Q step changes, so a fast update keeps contributions of the narrower range (stale_range_bug); a setStructure call, or a change of what F(Q) depends on without a click, leaves out the evaluations up to the next full one (taintRunF); sites of different multiplicity with a cut-off, occupancies that differ within a type (C44) and growing factors (C56) are left out too; over exact reals")
c("C88", "proved", t("Verif.PDFHist.", "pdf_history pdf_history_whole pdf_parallel out_of_agrees density_eq update_fn base_zero given_extended"),
  "over exact reals; with the hypotheses of C86 (ticker clicks, cropped range, no mask on sites under fast updates); at points of the extended range outside the r grid plus ripples edges (Seen) the summand is left open by pdf_history and pinned down by pdf_history_whole, for rmin within the ripples and cropped profiles; a Qmax within 2^-26 below the Nyquist limit is left out")
c("C89", "partial", t("Verif.DebyeHist.", "G_history_partial G_parallel_partial"),
  "false in full for the reasons of C87 (stale_range_bug) and C58 (interp_edge_bug: reads past the end without an extension); growing factors, occupancies that differ within a type and negative precision are left out; over exact reals")
c("C90", "partial", t("Verif.PDFHist.", "library_rdf_partial library_rdf_cropped_partial library_pdf_partial library_parallel_partial switch_spec library_calculator library_regular api_quiet prof_shape msd_along exAniso_displaced tails_bound library_exists"),
  "false in full for tilted anisotropic displacements (C36 dw_max_bug, C62) and for Qbroad with bonds beyond the range (C36 jeong_tail_bug): left out, as are bonds of zero width (NaN of the cropped profile, C36) and negative constants; in crystals, displacements that are the same along a vector and its images under the operations (isotropic ones are); over exact reals")
c("C91", "partial", t("Verif.DebyeHist.", "library_F_partial library_fresh_partial library_G_partial library_debye_parallel_partial library_debye library_debye_regular called_untainted api_alike debye_tails_bound two_atoms_F library_debye_exists setRstep_bug"),
  "false in full: without the optimum Q step (C87 stale), for factors growing with Q (C56), tilted anisotropic displacements (C36, C62; with Qbroad the range covers the peaks of bonds within it only), after setStructure before a fast update (C12) and after setRstep before one (setRstep_bug: the bonds are removed in another range than they were added in); left out besides: rmin beyond the extension, Qmax*rmax at most 4 pi, fast updates of sites of unequal multiplicity with a precision cut")
c("C92", "partial", t("Verif.Mask.", "mask_in_evaluation runs_maskOf mask_call_quiet runs_hasPairMask maskOf_comm maskOf_types no_conflict allmasks_agree") + " " + t("Verif.PDFHist.", "masked_rdf_partial masked_pdf_partial masked_library masked_usual masked_called cache_masks masked_exists") + " " + t("Verif.DebyeHist.", "masked_F_partial masked_fresh_partial masked_debye masked_usual_debye masked_debye_exists"),
  "false in full (C05, C06): setPairMask with an all-sites index, or after setTypeMask, keeps masks made for the sites of the last structure; contradicting all-type masks depend on the order of a hash container; and with the restrictions of C90 and C91")
c("C93", "partial", t("Verif.PDFHist.", "stale_rdf_partial stale_pdf_partial stale_empty inside_sub outside_beyond configures_keep getRDF_after_setRstep_bug"),
  "false for other changes: a range beyond the extended range makes the getters erase outside of their arrays, after setRstep the old values appear under the new grid (both in the theorems), an empty range stays empty; with the restrictions of C86 and C88")
c("C94", "partial", t("Verif.DebyeHist.", "stale_F_partial stale_G_partial quiet_settings raised_qmax_bug raised_rmax_bug configures_keep"),
  "false for other changes: with fewer Q points the rest of F(Q) is returned without normalisation, with more (after raising Qmax or rmax) getF reads outside of its arrays, and so does getPDF for a grid beyond pi/Qstep (all in the theorems); with the restrictions of C87 and C89")
c("C95", "partial", t("Verif.BVHist.", "sums_history_partial sums_history sums_parallel settings throw_unchanged reads_after_settings diffs_of_sums symvals_order siteAt_some siteMult_eq appended_atom_bug late_valence_bug"),
  "sums_history is exact for all structures; in crystals with sites of different multiplicity the code weighs neighbours wrongly (C82), so that the English statement needs equal multiplicities; masks as in C92; parallel jobs visit the bonds in the same order; when the structure object gets more atoms after the evaluation the getters read past their arrays (appended_atom_bug), and valences() ignores later changes of the table (late_valence_bug)")
c("C96", "partial", t("Verif.OlpHist.", "overlap_history neighborhoods_history overlap_parallel_partial settings throw_unchanged stored_results sites_spec radius_after query_before_merge_bug"),
  "one process: complete; neighborhoods() decides by the masks of the time of the query whether a site without overlaps is listed, which neighborhoods_history states; parallel: a neighbour query before the last merge makes the calculator forget the neighbours merged later (query_before_merge_bug); masks as in C92; parallel jobs visit the bonds in the same order; user tables whose lookup throws are not modelled")
c("C97", "partial", t("Verif.Geo.", "same_sum same_sum_vec same_cluster same_periodic same_supercell same_expanded expanded_exists count_oneToOne count_supercell count_expanded") + " " + t("Verif.BVHist.", "bvs_redescribed_partial") + " " + t("Verif.OlpHist.", "overlap_redescribed") + " " + t("Verif.PDFHist.", "rdf_redescribed_partial pdf_redescribed_partial density_same") + " " + t("Verif.DebyeHist.", "debye_redescribed_partial reset_same") + " " + t("Verif.BondCalc.", "bonds_redescribed_partial"),
  "overlaps: complete; bond valence sums: sites of equal multiplicity (C80, else the sums of crystals are wrong) and lookups that do not depend on the order of the atoms; RDF, G(r), F(Q): the conditions of C90, anisotropic displacements that are the same along a vector and the moved vector, and in crystals along its images under the operations; Debye sum: those of C91, F(Q) up to the Debye precision of both evaluations; bond lists: without cones, histories of C16; masks that treat both descriptions alike (type masks do)")
c("C98", "partial", t("Verif.Geo.", "divides_not divides_types") + " " + t("Verif.PDFHist.", "rdf_parts pdf_parts library_parts_partial") + " " + t("Verif.DebyeHist.", "debye_parts_partial") + " " + t("Verif.BVHist.", "types_divide onlyTypes_spec sums_parts_partial") + " " + t("Verif.OlpHist.", "overlap_parts") + " " + t("Verif.BondCalc.", "bonds_parts_partial"),
  "overlaps: complete; histories as in C90, C91, C84, C95 (fast updates after calls that do not click the ticker are left out, because the code is wrong there); G(r) and F(Q) of the PDFCalculator with the cropped profile and zero or linear baselines; Debye sums up to twice the Debye precision, as each of the two is within the precision of the sum over all bonds")
c("C99", "partial", t("Verif.PDFHist.", "rdf_amounts_partial pdf_amounts_partial struRDF_amounts exAmounts") + " " + t("Verif.DebyeHist.", "debye_amounts_partial struSum_amounts exHalves_amounts") + " " + t("Verif.BVHist.", "bvs_amounts_partial goes_by_types exSplit_amounts") + " " + t("Verif.OlpHist.", "overlap_amounts"),
  "overlaps: complete; the others under the conditions of C90, C91 and C95 (fast updates after calls that do not click the ticker are left out, G(r) and F(Q) of the PDFCalculator with the cropped profile and zero or linear baselines); the extension of the range for the tails of peaks is taken over all atoms, so that the displacements of atoms without occupancy must not exceed those of the others, or the RDF is taken where this does not matter; bond valence sums: the same types in both, as the automatic cutoff is over all types, and equal multiplicities; Debye sums: up to twice the Debye precision, and only when the atoms of one type have one occupancy in each structure, because the code takes the occupancy of the first atom of a type for all (C44): in full the claim is false there")
c("C100", "partial", t("Verif.BondCalc.", "bonds_range_partial") + " " + t("Verif.PDFHist.", "rdf_range_partial window_whole unlimited_pdf_partial pdf_range_partial exLib_fits") + " " + t("Verif.BVHist.", "cutoff_above bvs_range_partial") + " " + t("Verif.OlpHist.", "olp_above overlap_range"),
  "overlaps: complete; bonds under the conditions of C16 (one class of structures, fast updates only after calls that click the ticker); RDF and G(r) under those of C90, for ranges with enough room for ripples and tails in both (otherwise the code reduces the extension in proportion and peaks near the ends are lost: the claim is false there), not within one step of the lower end unless the extended range begins at zero, nor of the upper end unless peaks are cropped; bond valence sums under those of C95")
c("C101", "proved", t("Verif.Queries.", "snapshot_values types_values square_values coordination_values total_value gradient_values neighbor_values byType_values flip_values bv_values bond_type_values exUndisturbed"),
  "neighbours, coordinations by types and exchanges are for calculators that were not asked for neighbours between two merges (otherwise C96 applies); overlapping bonds whose sites no longer exist are covered by C96")
c("C102", "partial", t("Verif.CountHist.", "settings counts_history counts_partial counts_cluster counts_parallel counts_parts half_of_all counted_from_later throw_unchanged setting_keeps"),
  "half of the number of neighbours only when all sites have the same multiplicity (finite and periodic structures); in crystals with sites of different multiplicities the pairs are counted from the later site (counts_history), so the number depends on the order of the sites (counted_from_later); the integer result drops the half of an odd number")
c("C103", "partial", t("Verif.PDFHist.", "rdf_factors_partial pdf_factors_partial struRDF_factors dilute_spec same_diluted exDilute_stru") + " " + t("Verif.DebyeHist.", "debye_factors_partial struSum_factors meanFactor_diluted") + " " + t("Verif.BVHist.", "bvs_factors_partial") + " " + t("Verif.OlpHist.", "overlap_factors"),
  "overlaps: complete; the others under the conditions of C99 (masks by types; G(r) and F(Q) of the PDFCalculator with the cropped profile and zero or linear baselines; bond valence sums with the same types of atoms in both structures; Debye sums up to the Debye precision of each and only when the atoms of one type have one occupancy in each structure, because the code takes the occupancy of the first atom of a type for all (C44): in full the claim is false there)")
c("C104", "proved", t("Verif.Double.", "fl64_isDouble fl64_mono fl64_neg epsEq_comm epsEq_refl epsEq_between epsLt_irrefl epsLt_trans epsGt_trans epsLt_not_gt epsLt_lt epsGt_gt compare_grid compare_rounded none_holds_bug both_hold_bug lt_not_gt_bug wrap_range wrap_idem wrap_shift wrap_near wrap_exact fract_one"),
  "that exactly one of the three relations holds is false for doubles in general: adjacent doubles above 2^27 satisfy none (none_holds_bug), others two (both_hold_bug), and less is not the reverse of greater (lt_not_gt_bug); the exponent range of doubles is unbounded in the model, NaN and infinities are not modelled")
c("C105", "proved", t("Verif.Threads.", "click_newest serial_newest serial_idle uninterrupted_inv clicks_run lost_click_bug"),
  "the code has no lock: an increment that is interrupted between load and store sets the counter back by any number of clicks, and the next change is older than a value calculated before it (lost_click_bug); the model gives each step the result of all earlier ones, the counter does not overflow")
c("C106", "proved", t("Verif.Double.", "tabulated_iff cosdF_exact cosdF_generic cosdF_even cosdF_range radians_near cosdF_near sindF_near sindF_exact sindF_tiny_bug acosd_real acosdF_near libraries_exist"),
  "the error of the sine is absolute: the sine of angles up to 2^-48 degrees is exactly zero (sindF_tiny_bug); asind is wrong already over the reals (C40); overflow, NaN and infinities are not modelled")
c("C107", "proved", t("Verif.Double.", "right_angles twice_near right_cartesian right_symmetric right_volume standard_orientation general_cartesian volumeNormal_cells exact_gram exact_volume exact_reciprocal reciprocal_sines roots_exists twice_pow cube_bug"),
  "the first edge is the reciprocal of the reciprocal and need not be exact: in a cube with edge 49 the point (1,0,0) is farther from the origin than (0,1,0) (cube_bug); fractional coordinates use the inverse by GSL, which is not modelled in doubles; overflow, NaN and the sign of zero are not modelled")
c("C108", "proved", t("Verif.Double.", "fl64_cell sqrt_square sqrt_one normalized sqrt_sq sqrt_near distance_comm distance_axis dot_near distance_near distance_zero_iff base_right_angles reset_changes_bug sqrt_exists"),
  "setting a lattice to its own edges and angles can change its base vectors (reset_changes_bug); overflow, underflow, NaN and the sign of zero are not modelled, so that distances below 2^-537 do not become zero as in the program")
c("C109", "proved", t("Verif.Double.", "sqrt_mono norm_ge_component updateDistance_cases bond_kept_iff bond_kept_comm bond_kept_real image_second_edge image_first_edge neighbours_bug image_rounding_bug"),
  "within the margin equal distances can be treated differently: in a cube with edge 49 an atom at the origin has its images along the second edge but not along the first for neighbours within 49 (neighbours_bug); the enumeration of the cells is C18 over the reals")
c("C110", "proved", t("Verif.Double.", "edges_pos diag_apply right_base cart_eq frac_eq product_near round_trip ucv_range ucv_near right_exists"),
  "GSL's inverse of a diagonal matrix is assumed to hold the rounded reciprocals (InvDiag); overflow and underflow are not modelled")
c("C111", "proved", t("Verif.BVEqual.", "param_eq_iff param_eq_equiv bond_equal_iff bond_of_eq hash_of_bond find_bond find_unique make_order make_comm same_valence_order"),
  "a parameter set for atoms of equal valence is not found when the atoms are given in the other order (same_valence_order)")
