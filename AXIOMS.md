# Axioms of the theorems in MANIFEST.json

Output of `#print axioms`, grouped (written by tools/gen_axioms.py).

## none (6)

`Ticker.ticker_load_order_needs_same_clock`, `Registry.sft_register_bug`, `BV.getAll_spec`, `Composite.assign_untracked`, `Reload.save_check_bug`, `Reload.save_ok`

## propext (20)

`Eval.half_sum_needs_symmetry`, `History.full_eval_clears`, `Protocol.switch_error`, `Protocol.reported_type`, `AtomUtils.valence_zero`, `AtomUtils.valence_spaces`, `BV.lookup_priority`, `BV.lookup_source`, `LineReader.fields_unique`, `Copies.copy_same`, `Reload.reload_members`, `Reload.reload_ctl`, `Rounding.step_exact`, `Rounding.run_exact`, `Archive.newer_rejected`, `Archive.truncated_corrupts_bug`, `Edits.edit_allowed`, `NanDiff.atoms_equal_iff`, `Threads.serial_idle`, `BVEqual.hash_of_bond`

## propext, Quot.sound (49)

`Mask.mask_hasMask_false`, `Mask.pairmask_seen`, `Eval.basic_serial_spec`, `Protocol.merge_error`, `Protocol.switch_accepts`, `Protocol.switch_keeps`, `Protocol.switch_history`, `Protocol.setup_parallel`, `BondCalc.compare_lex`, `PDFGrid.rgrid_spacing`, `PDFGrid.qgrid_none`, `Tables.text_split`, `Tables.toString_sorted`, `Tables.sft_lookup_history`, `Tables.sft_click`, `AtomUtils.valence_spec`, `BV.lookup_asymmetric_bug`, `BV.table_history`, `Overlap.cacheOK_fresh`, `Overlap.cacheOK_filled`, `Overlap.cacheOK_reload`, `Envelope.owner_history`, `Envelope.failed_calls`, `Envelope.types_spec`, `LineReader.reading_spec`, `LineReader.fields_spec`, `LineReader.words_spec`, `LineReader.tokens_unique`, `LineReader.classify_words`, `History.unchanged_keeps_value`, `History.stale_without_click`, `Composite.calls_effect`, `Copies.copy_detached`, `Rounding.control_unchanged`, `InPlace.refines_values`, `InPlace.calls_leave_structures`, `Archive.structure_saves`, `Queries.flip_grown_bug`, `Queries.queries_independent`, `Queries.neighbors_complete`, `Queries.query_between_merges_bug`, `Queries.bond_types_safe_iff`, `Queries.mean_value`, `Components.registered`, `NanDiff.empty_difference_keeps_result`, `Input.int_word`, `Queries.exUndisturbed`, `BVEqual.bond_equal_iff`, `BVEqual.make_order`

## propext, Classical.choice, Quot.sound (877)

`Ticker.ticker_total_order`, `Ticker.ticker_trichotomy`, `Ticker.ticker_never_ahead`, `Ticker.ticker_click_newest`, `Ticker.ticker_updateFrom_max`, `Ticker.ticker_load_not_ahead`, `Ticker.ticker_load_order`, `Mask.mask_symmetric`, `Mask.mask_setPair`, `Mask.mask_setSiteAll`, `Mask.mask_all`, `Mask.mask_setPair_survives_structure`, `Mask.mask_siteAll_lost_on_structure`, `Mask.mask_invert`, `Mask.mask_invert_structure`, `Mask.mask_types_partial`, `Mask.mask_by_types`, `Mask.getTypeMask_symmetric`, `Mask.mask_types_order_dependent`, `Mask.getTypeMask_not_symmetric`, `Mask.siteAll_in_evaluation`, `Mask.mask_change_clicks_partial`, `Mask.quiet_later`, `Mask.quiet_data`, `Mask.mask_repeat`, `Mask.mask_change_without_click`, `Mask.typemask_change_without_click`, `Eval.parallel_basic_partition`, `Eval.parallel_fast_partition`, `Eval.parallel_merge_value`, `Eval.basic_value`, `Eval.half_sum_eq_full_sum`, `Eval.fast_update_sideBySide`, `Eval.fast_update_sorted`, `Eval.fast_update_parallel`, `Diff.fast_update_of_diff`, `Diff.diff_sideBySide`, `Diff.diff_sideBySide_rest`, `Diff.diff_equal`, `Diff.atom_order`, `Diff.allowsFast_iff_real`, `Diff.diff_none`, `Diff.diff_crystal`, `Diff.diff_sorted`, `BondGen.base_loop_exact`, `BondGen.base_loop_sites`, `BondGen.base_loop_data`, `BondGen.base_loop_genSpec`, `Lattice.cartesian_fractional`, `Lattice.lattice_isometry`, `Lattice.baserot_isometry`, `Lattice.parameters_of_base`, `Lattice.cartesianMatrix_fractionalMatrix`, `Lattice.setLatPar_self`, `Lattice.ucvFractional_range`, `Lattice.ucvFractional_shift`, `Lattice.ucvFractional_idem`, `Lattice.ucvFractional_periodic`, `Lattice.ucvCartesian_translation`, `Lattice.ucvFractional_not_exact`, `Lattice.setLatBase_failure_corrupts`, `Lattice.setLatBase_failure_partial`, `Lattice.setLatPar_recovers`, `Lattice.setLatBase_accepts`, `Lattice.ucMaxDiagonal_bounds`, `Lattice.ucMaxDiagonal_bounds_strict`, `MathUtils.cosd_eq_cos`, `MathUtils.sind_eq_sin`, `MathUtils.cosd_exact`, `MathUtils.acosd_eq_arccos`, `MathUtils.asind_tabulated_partial`, `MathUtils.asind_elsewhere_is_acosd`, `MathUtils.asind_wrong`, `MathUtils.eps_trichotomy`, `MathUtils.eps_laws`, `MathUtils.eps_eq_not_transitive`, `MathUtils.seqEqual_not_less`, `MathUtils.seqLess_total`, `MathUtils.seqLess_iff`, `MathUtils.seqLess_asymm`, `MathUtils.seqEqual_iff`, `Points.sphere_visits_iff`, `Points.spacing_visits_iff`, `Points.sphere_extra_entry`, `Points.sphere_terminates`, `Points.sphere_nodup`, `Points.sphere_complete`, `Points.sphere_sound_partial`, `Points.sphere_exact_partial`, `Points.sphere_exact_full`, `Points.reflections_complete`, `Points.create_proper`, `Points.reciprocal_proper`, `Points.radius_sq`, `Points.sphere_inner_boundary_bug`, `Points.copy_never_ends_bug`, `Points.copy_moves_source_bug`, `Points.copy_frozen_next`, `Points.copy_frozen_rewind`, `Points.finished_copy_moves_source`, `Periodic.periodic_bonds_exact`, `Periodic.periodic_bonds_user`, `Periodic.periodic_bonds_unique`, `Periodic.sphere_current`, `Periodic.sphere_covers`, `Periodic.radius_eq_norm`, `Crystal.expand_partial`, `Crystal.expand_exact_positions`, `Crystal.expand_average_bug`, `Crystal.multiplicity_current_partial`, `Crystal.multiplicity_current_count_partial`, `Crystal.multiplicity_stale_bug`, `Crystal.crystal_bonds_exact`, `Crystal.crystal_p1_bug`, `History.history_value_partial`, `History.history_result_partial`, `History.full_eval_value`, `History.basic_history`, `History.atomic_lawful`, `History.exCalc_lawful`, `History.setStructure_breaks_optimized`, `History.setupParallel_breaks_optimized`, `History.check_throws_in_parallel`, `History.failed_eval_recovers_partial`, `History.failed_evals_harmless`, `History.failed_eval_basic`, `History.failed_eval_breaks_optimized`, `History.failed_eval_check_throws`, `Protocol.merge_ok`, `Protocol.merge_all_ok`, `Protocol.merge_order`, `Protocol.merge_surplus`, `Protocol.gather_values`, `Protocol.flag_read_back`, `BondCalc.compare_total`, `BondCalc.bmerge_correct`, `BondCalc.bonds_history_partial`, `BondCalc.bond_history_partial`, `BondCalc.atomic_blawful`, `BondCalc.exCls_lawful`, `BondCalc.parallel_bonds`, `BondCalc.single_job_sends_nothing`, `BondCalc.check_throws`, `BondCalc.check_throws_iff`, `BondCalc.parallel_fast_update_loses_bonds`, `BondCalc.cone_filter_correct`, `BondCalc.cone_180`, `BondCalc.cone_rejects`, `BondCalc.cone_off`, `PDFGrid.rgrid_exact`, `PDFGrid.calc_range`, `PDFGrid.rescaled_spec`, `PDFGrid.restore_spec`, `PDFGrid.restore_zero`, `PDFGrid.getRDF_spec`, `PDFGrid.getRDFperR_spec`, `PDFGrid.getPDF_spec`, `PDFGrid.evaluated_fresh`, `PDFGrid.fast_fresh`, `PDFGrid.getRDF_after_setRmax_bug`, `PDFGrid.value_error`, `PDFGrid.value_complete`, `PDFGrid.rdf_complete`, `PDFGrid.first_point_bug`, `PDFGrid.fast_rdf_eq_basic`, `PDFGrid.fast_value_differs`, `Fft.fftgtof_spec`, `Fft.fft_roundtrip`, `PDFGrid.qgrid_exact`, `Fft.fourier_branch`, `Fft.getPDF_length`, `Fft.getF_length`, `Fft.extendedG_spec`, `Fft.full_window`, `Fft.fourier_example`, `Attr.get_ok`, `Attr.get_error`, `Attr.set_spec`, `Attr.set_failed`, `Attr.get_after_set`, `Attr.names_spec`, `Attr.attr_map`, `Attr.calculator_names_unique`, `Registry.registry_refines`, `Registry.call_results`, `Registry.step_results`, `Registry.deregister_spec`, `Registry.listing_spec`, `Registry.sft_register_spec`, `Tables.fromString_spec`, `Tables.fromString_failed`, `Tables.lookup_history`, `Tables.roundtrip_rounded`, `Tables.roundtrip`, `Tables.sft_custom_value`, `AtomUtils.bare_spec`, `AtomUtils.trimmed_unique`, `AtomUtils.bare_not_idempotent`, `AtomUtils.valence_bound`, `AtomUtils.symbol_roundtrip`, `BV.valence_distance_inverse`, `BV.valence_at_Ro`, `BV.valence_blank`, `BV.lookup_symmetric_partial`, `BV.lookup_symbols`, `BV.bvs_value_partial`, `BV.bvs_multiplicity_bug`, `BV.cutoff_partial`, `BV.cutoff_error_partial`, `BV.bvmsdiff_spec`, `Overlap.queries_spec`, `Overlap.siteSquareOverlaps_spec`, `Overlap.totalSquareOverlap_spec`, `Overlap.means_spec`, `Overlap.flipDiffTotal_spec`, `Overlap.flipDiffTotal_laws`, `Overlap.maxSeparation_swap`, `Overlap.coordinations_spec`, `Overlap.coordinationByTypes_spec`, `Overlap.getNeighborSites_spec`, `Overlap.parallel_overlap`, `Overlap.exTrace_balanced`, `Overlap.neighborhoods_components`, `Overlap.neighborhoods_spec`, `Overlap.total_is_energy`, `Overlap.gradients_correct_partial`, `Overlap.gradients_ignore_occupancy_bug`, `Overlap.gradients_spec`, `Overlap.periodic_gradients_partial`, `Overlap.reload_doubles_bug`, `Envelope.apply_spec`, `Envelope.apply_order`, `Envelope.add_pop`, `Envelope.baseline_spec`, `Envelope.spherical_spec`, `Envelope.spherical_off`, `Envelope.spherical_volume`, `Envelope.stepCut_spec`, `Envelope.qResolution_spec`, `Peak.precision_history`, `Peak.gauss_spec`, `Peak.gauss_bounds`, `Peak.cropped_spec`, `Peak.cropped_nan_bug`, `Peak.gauss_within`, `Peak.cropped_bounded`, `Peak.gauss_value_error`, `Peak.msd_spec`, `Peak.maxUii_spec`, `Peak.dw_max_partial`, `Peak.dw_max_sqrt3`, `Peak.dw_max_bug`, `Peak.jeong_max_partial`, `Peak.jeong_interior_bug`, `Peak.jeong_rmin_zero_bug`, `Peak.jeong_tail_bug`, `Peak.constant_spec`, `LineReader.classify_fields`, `LineReader.table_spec`, `LineReader.electron_ion`, `LineReader.electron_short`, `LineReader.electron_spelling`, `LineReader.table_stays`, `LineReader.load_ok_iff`, `LineReader.failed_load_bug`, `Mask.typemask_pair`, `Mask.typemask_one_all`, `Mask.typemask_all_all`, `Mask.typemask_last`, `Wrappers.wrapper_sites`, `Wrappers.wrapper_symmetry`, `Wrappers.wrapper_meta`, `Wrappers.wrapper_idempotent`, `Wrappers.wrapper_factory`, `Wrappers.wrapper_clone`, `Wrappers.wrapper_clone_deep`, `Wrappers.wrapper_diff`, `Wrappers.wrapper_diff_sound`, `Wrappers.pairCount_spec`, `Wrappers.pairCount_all`, `Wrappers.pairCount_general`, `Wrappers.pairCount_parallel`, `Wrappers.totalOccupancy_spec`, `Wrappers.totalOccupancy_expanded`, `Wrappers.density_spec`, `Wrappers.density_supercell`, `KindDiff.diff_kind_partial`, `KindDiff.kind_lawful_partial`, `KindDiff.diff_kind_down`, `KindDiff.diff_kind_bug`, `KindDiff.fast_update_kind_bug`, `Debye.sf_first`, `Debye.sf_occupancy_partial`, `Debye.sf_occupancy_bug`, `Debye.sf_base`, `Debye.debye_exact`, `Debye.debye_error`, `Debye.debye_base_error`, `Debye.debye_pdf_error_partial`, `Debye.value_get`, `Debye.sfAverage_get`, `Debye.getF_normalized`, `Debye.value_below_qmin`, `Debye.premature_break`, `Debye.premature_break_example`, `Debye.getF_stale_bug`, `Setters.p_setters`, `Setters.p_good`, `Setters.p_noclick`, `Setters.p_noclick_range`, `Setters.p_setQmax_bug`, `Setters.d_good`, `Setters.dnew_good`, `Setters.d_tracked`, `Setters.d_reject`, `Setters.d_late_throw`, `Setters.setQmax_zero_bug`, `Setters.setRstep_untracked`, `Setters.reset_range`, `Setters.reset_stable`, `Setters.extended_covers`, `Setters.debye_default`, `Setters.setQstep_spec`, `Setters.setRmax_opt`, `Setters.reset_parts`, `Setters.reset_custom`, `Setters.history_dependence_bug`, `Debye.debye_pdf`, `Debye.debye_pdf_partial`, `Debye.sinePDF_node`, `Debye.padF_spec`, `Debye.gpad_spec`, `Debye.interp_edge_bug`, `PDFCache.sfSite_spec`, `PDFCache.rdfScale_spec`, `PDFCache.activeocc_spec`, `PDFCache.slope_spec`, `PDFCache.activeFraction_laws`, `PDFCache.rdf_finite`, `PDFCache.rdf_cropped`, `PDFCache.rdf_gauss`, `PDFCache.pdf_finite`, `PDFCache.rdf_periodic`, `PDFCache.jeong_even`, `PDFCache.periodicGen_exists`, `PDFCache.evalGen_eq`, `PDFCache.rdf_crystal`, `PDFCache.rdf_orbits`, `PDFCache.orbit_eq`, `PDFCache.spaceGroup_sym`, `PDFCache.orbit_mult`, `PDFCache.orbit_balance`, `PDFCache.crystalGen_exists`, `PDFCache.image_msd`, `PDFCache.crystal_msd`, `PDFCache.rdf_tensor`, `PDFCache.ucartesian1_spec`, `PDFCache.identity_first_bug`, `PDFCache.unbalanced_bug`, `Composite.change_detected`, `Composite.no_spurious`, `Copies.unshared_independent`, `Copies.members_independent`, `Copies.basic_copies_partial`, `Copies.copy_optimized_bug`, `Copies.copy_parallel_bug`, `Reload.reload_exact`, `Reload.reload_history_partial`, `Reload.load_outdated`, `Reload.loadTick_spec`, `ObjCryst.fetch_spec`, `ObjCryst.crystal_atoms`, `ObjCryst.molecule_atoms`, `ObjCryst.crystal_orbit`, `ObjCryst.crystal_rdf`, `ObjCryst.fetch_general`, `ObjCryst.first_translation_bug`, `ObjCryst.act_shift`, `ObjCryst.act_invert`, `ScatData.xray_formula`, `ScatData.xray_even`, `ScatData.xray_zero`, `ScatData.xray_monotone`, `ScatData.electron_formula`, `ScatData.electron_bound`, `ScatData.findWK_spec`, `ScatData.findWK_short`, `ScatData.load_file`, `ScatData.wk_file`, `ScatData.xray_file`, `ScatData.wk_stays`, `ScatData.load_rejects`, `ScatData.fxray_spec`, `ScatData.felectron_spec`, `ScatData.findWK_multi_bug`, `ScatData.wk_failed_load_bug`, `ScatData.rowName_spec`, `ScatData.bc_table`, `ScatData.bc_ok`, `ScatData.bc_file`, `ScatData.loadBC_rows`, `ScatData.addRow_spec`, `ScatData.bc_charge`, `ScatData.mass_suffix_bug`, `Rounding.rounding_drift`, `Rounding.optimized_drift`, `Rounding.basic_work`, `Rounding.merge_drift`, `Rounding.parallel_drift`, `Rounding.compare_spec`, `Rounding.compare_iff`, `Rounding.check_negative_bug`, `Rounding.drift_stays`, `Double.fl64_rounds`, `Double.fl64_exact`, `Double.rmin_rounded`, `Double.rmin_multiple`, `Double.rgrid_rounded`, `Double.rmax_bug`, `Buffers.nested_calls`, `Buffers.copied_results`, `Buffers.kept_reference`, `Buffers.distance_two`, `Buffers.latDistance_two`, `Buffers.matrix_call`, `Buffers.matrix_nested`, `Buffers.setLatBase_references`, `Buffers.same_function_bug`, `Buffers.product_twice_bug`, `Buffers.permute_bug`, `Buffers.getQmax_bug`, `InPlace.edits_noticed`, `InPlace.edits_noticed_partial`, `InPlace.live_edits_noticed`, `InPlace.current_structure`, `InPlace.live_optimized_bug`, `Equality.atom_eq_iff`, `Equality.atom_eq_equiv`, `Equality.atom_eq_nan`, `Equality.atom_hash`, `Equality.vec_mat_hash`, `Equality.atom_lt_iff`, `Equality.atom_order`, `Equality.order_nan_bug`, `Equality.eqAtomic_iff`, `Equality.eqPeriodic_iff`, `Equality.eqCrystal_iff`, `Equality.eq_self_copy`, `Equality.eq_structures_equiv`, `Equality.equal_periodic_same`, `Equality.equal_crystals_same`, `Equality.eq_ignores_precision_bug`, `Lattice.equal_lattices`, `Archive.structures_restored`, `Archive.tables_restored`, `Archive.components_restored`, `Archive.pdf_restored`, `Archive.debye_restored`, `Archive.bonds_restored`, `Archive.bvs_restored`, `Archive.overlap_restored`, `Archive.pq_saves`, `Archive.pdf_saves`, `Archive.replace_saves`, `Archive.replace_restores`, `Archive.bvtable_version0`, `Archive.debye_version0`, `RtPath.trim_spec`, `RtPath.resolves_unique`, `RtPath.datapath_pure`, `RtPath.answer_sound`, `RtPath.env_sticky`, `RtPath.env_looks`, `RtPath.lib_sticky`, `RtPath.lib_looks`, `RtPath.race_bug`, `RtPath.race_crash_bug`, `Queries.snapshot_queries`, `Queries.safe_iff`, `Queries.byTypes_safe_iff`, `Queries.flip_safe`, `Queries.after_eval_safe`, `Queries.grown_safe`, `Queries.bvs_safe_iff`, `Components.new_defaults`, `Components.set_effect`, `Components.set_get`, `Components.readable_iff_settable`, `Components.width_views`, `Components.others_untouched`, `Components.last_setting_wins`, `Components.clone_create`, `Components.same_settings_same_behaviour`, `Components.value_formula`, `Components.ticker_iff_changed`, `GenObj.settings_after_any_history`, `GenObj.loop_after_any_history`, `GenObj.abandoned_loops_do_not_matter`, `GenObj.configuration_ends_loop`, `GenObj.finished_stays`, `GenObj.valid_sites_never_fail`, `GenObj.no_bonds_without_rmax`, `GenObj.range_fixed_at_creation`, `GenObj.unselected_anchor_bug`, `GenObj.unselected_anchor_witness`, `GenObj.stale_anchor_bug`, `GenObj.periodic_loop_after_any_history`, `GenObj.periodic_points_current`, `GenObj.periodic_object_bonds`, `GenObj.periodic_loops_never_fail`, `GenObj.periodic_positions_frozen_bug`, `GenObj.periodic_lattice_edit_bug`, `GenObj.limit_change_inside_loop_bug`, `GenObj.selection_inside_loop_continues_bug`, `GenObj.new_generator_finished`, `GenObj.crystal_loop_after_any_history`, `GenObj.crystal_points_current`, `GenObj.crystal_object_bonds`, `GenObj.crystal_ucartesian1_valid`, `GenObj.crystal_loops_never_fail`, `GenObj.crystal_stopped_loop_never_fails`, `GenObj.second_generator_inside_loop_bug`, `GenObj.crystal_next_when_finished_bug`, `GenObj.crystal_configuration_inside_loop_bug`, `Edits.edit_positions`, `Edits.edits_length`, `Edits.edits_card`, `Edits.sorted_diff_minimal`, `Edits.edits_bound_difference`, `Edits.small_edits_allow_fast_update`, `Edits.reordered_allows_fast_update`, `Edits.append_only_difference`, `Edits.writes_difference`, `NanDiff.without_nan`, `NanDiff.sideBySide_lists_nan`, `NanDiff.copy_with_nan`, `NanDiff.sorted_pairs`, `NanDiff.moved_to_nan_not_noticed_bug`, `NanDiff.incomparable_not_transitive_bug`, `Input.int_fails`, `Input.double_word`, `Input.double_fails`, `Input.ion_line`, `Input.wk_line`, `Input.bc_field`, `Input.ion_file`, `BVFile.cif_line`, `BVFile.cif_line_rejected`, `BVFile.setFromCifLine_spec`, `BVFile.standard_table`, `BVFile.file_entry_found`, `BVFile.table_stays`, `BVFile.failed_load_bug`, `BVFile.missing_file_bug`, `BVFile.no_mark_bug`, `BVFile.glued_words_accepted_bug`, `BV.half_exact`, `BV.finite_sums`, `BV.periodic_sums`, `BV.crystal_sums`, `BV.crystal_sums_equal_partial`, `BV.dropped_neighbours_partial`, `BV.crystal_sums_bug`, `BV.caf_neighbours`, `Overlap.site_square_overlaps`, `Overlap.site_coordinations`, `Overlap.total_square_overlap`, `Overlap.limits_irrelevant`, `Overlap.neighbour_sites`, `Overlap.coordination_by_types`, `Overlap.flip_difference`, `Overlap.neighborhoods_end_to_end`, `Overlap.crystal_gradient_zero`, `Overlap.crystal_gradient_bug`, `Geo.gen_exists`, `Geo.delivers`, `Geo.range_finite`, `Geo.balance`, `BondCalc.bond_list`, `BondCalc.bond_parallel`, `BondCalc.lists_agree`, `BondCalc.reverse_listed`, `BondCalc.calculator_exists`, `Geo.vecs_spec`, `Geo.gen_vecs`, `Geo.trace_vecs`, `Geo.atomic_vectors`, `Geo.periodic_vectors`, `Geo.crystal_vectors`, `Debye.debye_F_partial`, `Debye.debye_F_exact_partial`, `Debye.reciprocal_distance`, `Debye.reciprocal_even`, `Debye.reciprocal_crystal`, `Debye.crystal_widths`, `Debye.trace_length`, `PDFHist.rdf_history`, `PDFHist.rdf_history_cropped`, `PDFHist.rdf_parallel`, `PDFHist.drawn_cropped`, `PDFHist.counted_fits`, `PDFHist.calculator_exists`, `PDFHist.setter_quiet`, `DebyeHist.F_history_partial`, `DebyeHist.fresh_history_partial`, `DebyeHist.F_parallel_partial`, `DebyeHist.steady_of`, `DebyeHist.calculator_exists`, `DebyeHist.stale_range_bug`, `DebyeHist.setRstep_bug`, `PDFHist.pdf_history`, `PDFHist.pdf_history_whole`, `PDFHist.pdf_parallel`, `PDFHist.out_of_agrees`, `PDFHist.density_eq`, `PDFHist.update_fn`, `PDFHist.base_zero`, `PDFHist.given_extended`, `DebyeHist.G_history_partial`, `DebyeHist.G_parallel_partial`, `PDFHist.library_rdf_partial`, `PDFHist.library_rdf_cropped_partial`, `PDFHist.library_pdf_partial`, `PDFHist.library_parallel_partial`, `PDFHist.switch_spec`, `PDFHist.library_calculator`, `PDFHist.library_regular`, `PDFHist.api_quiet`, `PDFHist.prof_shape`, `PDFHist.msd_along`, `PDFHist.exAniso_displaced`, `PDFHist.tails_bound`, `PDFHist.library_exists`, `DebyeHist.library_F_partial`, `DebyeHist.library_fresh_partial`, `DebyeHist.library_G_partial`, `DebyeHist.library_debye_parallel_partial`, `DebyeHist.library_debye`, `DebyeHist.library_debye_regular`, `DebyeHist.called_untainted`, `DebyeHist.api_alike`, `DebyeHist.debye_tails_bound`, `DebyeHist.two_atoms_F`, `DebyeHist.library_debye_exists`, `Mask.mask_in_evaluation`, `Mask.runs_maskOf`, `Mask.mask_call_quiet`, `Mask.runs_hasPairMask`, `Mask.maskOf_comm`, `Mask.maskOf_types`, `Mask.no_conflict`, `Mask.allmasks_agree`, `PDFHist.masked_rdf_partial`, `PDFHist.masked_pdf_partial`, `PDFHist.masked_library`, `PDFHist.masked_usual`, `PDFHist.masked_called`, `PDFHist.cache_masks`, `PDFHist.masked_exists`, `DebyeHist.masked_F_partial`, `DebyeHist.masked_fresh_partial`, `DebyeHist.masked_debye`, `DebyeHist.masked_usual_debye`, `DebyeHist.masked_debye_exists`, `PDFHist.stale_rdf_partial`, `PDFHist.stale_pdf_partial`, `PDFHist.stale_empty`, `PDFHist.inside_sub`, `PDFHist.outside_beyond`, `PDFHist.configures_keep`, `PDFHist.getRDF_after_setRstep_bug`, `DebyeHist.stale_F_partial`, `DebyeHist.stale_G_partial`, `DebyeHist.quiet_settings`, `DebyeHist.raised_qmax_bug`, `DebyeHist.raised_rmax_bug`, `DebyeHist.configures_keep`, `BVHist.sums_history_partial`, `BVHist.sums_history`, `BVHist.sums_parallel`, `BVHist.settings`, `BVHist.throw_unchanged`, `BVHist.reads_after_settings`, `BVHist.diffs_of_sums`, `BVHist.symvals_order`, `BVHist.siteAt_some`, `BVHist.siteMult_eq`, `BVHist.appended_atom_bug`, `BVHist.late_valence_bug`, `OlpHist.overlap_history`, `OlpHist.neighborhoods_history`, `OlpHist.overlap_parallel_partial`, `OlpHist.settings`, `OlpHist.throw_unchanged`, `OlpHist.stored_results`, `OlpHist.sites_spec`, `OlpHist.radius_after`, `OlpHist.query_before_merge_bug`, `Geo.same_sum`, `Geo.same_sum_vec`, `Geo.same_cluster`, `Geo.same_periodic`, `Geo.same_supercell`, `Geo.same_expanded`, `Geo.expanded_exists`, `Geo.count_oneToOne`, `Geo.count_supercell`, `Geo.count_expanded`, `BVHist.bvs_redescribed_partial`, `OlpHist.overlap_redescribed`, `PDFHist.rdf_redescribed_partial`, `PDFHist.pdf_redescribed_partial`, `PDFHist.density_same`, `DebyeHist.debye_redescribed_partial`, `DebyeHist.reset_same`, `BondCalc.bonds_redescribed_partial`, `Geo.divides_not`, `Geo.divides_types`, `PDFHist.rdf_parts`, `PDFHist.pdf_parts`, `PDFHist.library_parts_partial`, `DebyeHist.debye_parts_partial`, `BVHist.types_divide`, `BVHist.onlyTypes_spec`, `BVHist.sums_parts_partial`, `OlpHist.overlap_parts`, `BondCalc.bonds_parts_partial`, `PDFHist.rdf_amounts_partial`, `PDFHist.pdf_amounts_partial`, `PDFHist.struRDF_amounts`, `PDFHist.exAmounts`, `DebyeHist.debye_amounts_partial`, `DebyeHist.struSum_amounts`, `DebyeHist.exHalves_amounts`, `BVHist.bvs_amounts_partial`, `BVHist.goes_by_types`, `BVHist.exSplit_amounts`, `OlpHist.overlap_amounts`, `BondCalc.bonds_range_partial`, `PDFHist.rdf_range_partial`, `PDFHist.window_whole`, `PDFHist.unlimited_pdf_partial`, `PDFHist.pdf_range_partial`, `PDFHist.exLib_fits`, `BVHist.cutoff_above`, `BVHist.bvs_range_partial`, `OlpHist.olp_above`, `OlpHist.overlap_range`, `Queries.snapshot_values`, `Queries.types_values`, `Queries.square_values`, `Queries.coordination_values`, `Queries.total_value`, `Queries.gradient_values`, `Queries.neighbor_values`, `Queries.byType_values`, `Queries.flip_values`, `Queries.bv_values`, `Queries.bond_type_values`, `CountHist.settings`, `CountHist.counts_history`, `CountHist.counts_partial`, `CountHist.counts_cluster`, `CountHist.counts_parallel`, `CountHist.counts_parts`, `CountHist.half_of_all`, `CountHist.counted_from_later`, `CountHist.throw_unchanged`, `CountHist.setting_keeps`, `PDFHist.rdf_factors_partial`, `PDFHist.pdf_factors_partial`, `PDFHist.struRDF_factors`, `PDFHist.dilute_spec`, `PDFHist.same_diluted`, `PDFHist.exDilute_stru`, `DebyeHist.debye_factors_partial`, `DebyeHist.struSum_factors`, `DebyeHist.meanFactor_diluted`, `BVHist.bvs_factors_partial`, `OlpHist.overlap_factors`, `Double.fl64_isDouble`, `Double.fl64_mono`, `Double.fl64_neg`, `Double.epsEq_comm`, `Double.epsEq_refl`, `Double.epsEq_between`, `Double.epsLt_irrefl`, `Double.epsLt_trans`, `Double.epsGt_trans`, `Double.epsLt_not_gt`, `Double.epsLt_lt`, `Double.epsGt_gt`, `Double.compare_grid`, `Double.compare_rounded`, `Double.none_holds_bug`, `Double.both_hold_bug`, `Double.lt_not_gt_bug`, `Double.wrap_range`, `Double.wrap_idem`, `Double.wrap_shift`, `Double.wrap_near`, `Double.wrap_exact`, `Double.fract_one`, `Threads.click_newest`, `Threads.serial_newest`, `Threads.uninterrupted_inv`, `Threads.clicks_run`, `Threads.lost_click_bug`, `Double.tabulated_iff`, `Double.cosdF_exact`, `Double.cosdF_generic`, `Double.cosdF_even`, `Double.cosdF_range`, `Double.radians_near`, `Double.cosdF_near`, `Double.sindF_near`, `Double.sindF_exact`, `Double.sindF_tiny_bug`, `Double.acosd_real`, `Double.acosdF_near`, `Double.libraries_exist`, `Double.right_angles`, `Double.twice_near`, `Double.right_cartesian`, `Double.right_symmetric`, `Double.right_volume`, `Double.standard_orientation`, `Double.general_cartesian`, `Double.volumeNormal_cells`, `Double.exact_gram`, `Double.exact_volume`, `Double.exact_reciprocal`, `Double.reciprocal_sines`, `Double.roots_exists`, `Double.twice_pow`, `Double.cube_bug`, `Double.fl64_cell`, `Double.sqrt_square`, `Double.sqrt_one`, `Double.normalized`, `Double.sqrt_sq`, `Double.sqrt_near`, `Double.distance_comm`, `Double.distance_axis`, `Double.dot_near`, `Double.distance_near`, `Double.distance_zero_iff`, `Double.base_right_angles`, `Double.reset_changes_bug`, `Double.sqrt_exists`, `Double.sqrt_mono`, `Double.norm_ge_component`, `Double.updateDistance_cases`, `Double.bond_kept_iff`, `Double.bond_kept_comm`, `Double.bond_kept_real`, `Double.image_second_edge`, `Double.image_first_edge`, `Double.neighbours_bug`, `Double.image_rounding_bug`, `Double.edges_pos`, `Double.diag_apply`, `Double.right_base`, `Double.cart_eq`, `Double.frac_eq`, `Double.product_near`, `Double.round_trip`, `Double.ucv_range`, `Double.ucv_near`, `Double.right_exists`, `BVEqual.param_eq_iff`, `BVEqual.param_eq_equiv`, `BVEqual.bond_of_eq`, `BVEqual.find_bond`, `BVEqual.find_unique`, `BVEqual.make_comm`, `BVEqual.same_valence_order`
