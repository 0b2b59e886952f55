{"MplLayout.Props.C01_unflatten_flatten": "depends on axioms: [propext, Quot.sound]", "MplLayout.Props.C01_flatten_injective": "depends on axioms: [propext, Quot.sound]", "MplLayout.Props.C02_iter_flat": "depends on axioms: [propext, Quot.sound]", "MplLayout.Props.C02_iter_flat_key": "depends on axioms: [propext, Quot.sound]", "MplLayout.Props.C02_slash_collision": "depends on axioms: [propext, Quot.sound]", "MplLayout.Props.C03_lookup_composes": "depends on axioms: [propext, Quot.sound]", "MplLayout.Props.C03_lookup_error": "depends on axioms: [propext]", "MplLayout.Props.C03_lookup_single": "depends on axioms: [propext, Quot.sound]", "MplLayout.Props.C03_lookup_path": "depends on axioms: [propext, Quot.sound]", "MplLayout.Props.C04_add_child": "depends on axioms: [propext, Quot.sound]", "MplLayout.Props.C04_add_child_good": "depends on axioms: [propext, Quot.sound]", "MplLayout.Props.C05_add_child_outcome": "depends on axioms: [propext, Quot.sound]", "MplLayout.Props.C06_setitem_partial": "depends on axioms: [propext, Classical.choice, Quot.sound]", "MplLayout.Props.C06_trailing_slash": "depends on axioms: [propext]", "MplLayout.Props.C06_leading_slash": "depends on axioms: [propext]", "MplLayout.Props.C07_contains_partial": "depends on axioms: [propext, Quot.sound]", "MplLayout.Props.C07_raises": "depends on axioms: [propext]", "MplLayout.Props.C07_trailing_slash": "depends on axioms: [propext]", "MplLayout.Props.C08_map": "depends on axioms: [propext, Quot.sound]", "MplLayout.Props.C08_map_map": "depends on axioms: [propext, Quot.sound]", "MplLayout.Props.C08_copy": "depends on axioms: [propext, Quot.sound]", "MplLayout.Props.C09_accumulate": "depends on axioms: [propext, Quot.sound]", "MplLayout.Props.C09_accumulate_sum": "depends on axioms: [propext, Quot.sound]", "MplLayout.Props.C10_node_height": "depends on axioms: [propext, Quot.sound]", "MplLayout.Props.C10_node_height_keys": "depends on axioms: [propext, Quot.sound]", "MplLayout.Props.C11_getitem_int": "depends on axioms: [propext, Quot.sound]", "MplLayout.Props.C11_getitem_out_of_range": "depends on axioms: [propext, Quot.sound]", "MplLayout.Props.C11_getitem_slice": "depends on axioms: [propext, Quot.sound]", "MplLayout.Props.C11_getitem_slice_any": "depends on axioms: [propext, Classical.choice, Quot.sound]", "MplLayout.Props.C11_getitem_step": "depends on axioms: [propext, Classical.choice, Quot.sound]", "MplLayout.Props.C11_reversed": "depends on axioms: [propext, Classical.choice, Quot.sound]", "MplLayout.Props.C11_step_one": "depends on axioms: [propext, Classical.choice, Quot.sound]", "MplLayout.Props.C11_getitem_kinds": "depends on axioms: [propext]", "MplLayout.Props.C12_fresh_key": "depends on axioms: [propext, Classical.choice, Quot.sound]", "MplLayout.Props.C13_add_item": "depends on axioms: [propext, Classical.choice, Quot.sound]", "MplLayout.Props.C13_no_repeat": "depends on axioms: [propext, Classical.choice, Quot.sound]", "MplLayout.Props.C13_cross_category": "depends on axioms: [propext]", "MplLayout.Props.C14_polygon": "depends on axioms: [propext, Classical.choice, Quot.sound]", "MplLayout.Props.C14_quadrilateral": "depends on axioms: [propext, Classical.choice, Quot.sound]", "MplLayout.Props.C14_default_quadrilateral": "depends on axioms: [propext, Classical.choice, Quot.sound]", "MplLayout.Props.C14_point": "depends on axioms: [propext, Classical.choice, Quot.sound]", "MplLayout.Props.C14_default_line": "depends on axioms: [propext, Classical.choice, Quot.sound]", "MplLayout.Props.C14_default_polygon": "depends on axioms: [propext, Classical.choice, Quot.sound]", "MplLayout.Props.C15_classes": "does not depend on any axioms", "MplLayout.Props.C15_signature": "depends on axioms: [propext, Classical.choice, Quot.sound]", "MplLayout.Props.C15_shipped": "depends on axioms: [propext, Classical.choice, Quot.sound]", "MplLayout.Props.C15_line_drops_extra": "depends on axioms: [propext, Classical.choice, Quot.sound]", "MplLayout.Props.C16_default_parts": "depends on axioms: [propext, Classical.choice, Quot.sound]", "MplLayout.Props.C16_supplied_partial": "depends on axioms: [propext, Classical.choice, Quot.sound]", "MplLayout.Props.C16_surplus_dropped": "depends on axioms: [propext, Classical.choice, Quot.sound]", "MplLayout.Props.C16_missing_accepted": "depends on axioms: [propext, Classical.choice, Quot.sound]", "MplLayout.Props.C17_unique_values": "depends on axioms: [propext, Quot.sound]", "MplLayout.Props.C18_extract_rebuild": "depends on axioms: [propext, Quot.sound]", "MplLayout.Props.C19_rebuild": "depends on axioms: [propext, Quot.sound]", "MplLayout.Props.C19_sharing": "depends on axioms: [propext, Quot.sound]", "MplLayout.Props.C19_polygon_stays_closed": "depends on axioms: [propext, Quot.sound]", "MplLayout.Props.C20_unpack_pack": "depends on axioms: [propext, Quot.sound]", "MplLayout.Props.C20_pack_unpack": "depends on axioms: [propext, Quot.sound]", "MplLayout.Props.C21_call_is_recursive_evaluation_partial": "depends on axioms: [propext, Classical.choice, Quot.sound]", "MplLayout.Props.C21_grid_too_few_margins": "depends on axioms: [propext, Classical.choice, Quot.sound]", "MplLayout.Props.C22_bad_arguments": "depends on axioms: [propext, Classical.choice, Quot.sound]", "MplLayout.Props.C22_validation": "depends on axioms: [propext, Classical.choice, Quot.sound]", "MplLayout.Props.C23_chunk": "depends on axioms: [propext, Classical.choice, Quot.sound]", "MplLayout.Props.C24_sum_partial": "depends on axioms: [propext, Classical.choice, Quot.sound]", "MplLayout.Props.C24_sum_of_leaves_partial": "depends on axioms: [propext, Classical.choice, Quot.sound]", "MplLayout.Props.C24_compound_counterexample": "depends on axioms: [propext, Classical.choice, Quot.sound]", "MplLayout.Props.C24_shared_partial": "depends on axioms: [propext, Classical.choice, Quot.sound]", "MplLayout.Props.C24_same_primitives_partial": "depends on axioms: [propext, Classical.choice, Quot.sound]", "MplLayout.Props.C25_sum_shape": "depends on axioms: [propext, Classical.choice, Quot.sound]", "MplLayout.Props.C26_number_multiple_partial": "depends on axioms: [propext, Classical.choice, Quot.sound]", "MplLayout.Props.C26_negative": "depends on axioms: [propext, Classical.choice, Quot.sound]", "MplLayout.Props.C26_scalar_multiple": "depends on axioms: [propext, Classical.choice, Quot.sound]", "MplLayout.Props.C26_not_scalar": "depends on axioms: [propext]", "MplLayout.Props.C26_scalar_times_number": "depends on axioms: [propext]", "MplLayout.Props.C26_neg_one_mul": "depends on axioms: [propext, Classical.choice, Quot.sound]", "MplLayout.Props.C27_number_power": "depends on axioms: [propext, Classical.choice, Quot.sound]", "MplLayout.Props.C27_scalar_power": "depends on axioms: [propext, Classical.choice, Quot.sound]", "MplLayout.Props.C27_quotient": "depends on axioms: [propext, Classical.choice, Quot.sound]", "MplLayout.Props.C27_recip": "depends on axioms: [propext, Classical.choice, Quot.sound]", "MplLayout.Props.C27_real_quotient": "depends on axioms: [propext, Classical.choice, Quot.sound]", "MplLayout.Props.C27_real_power": "depends on axioms: [propext, Classical.choice, Quot.sound]", "MplLayout.Props.C28_freeze_partial": "depends on axioms: [propext, Classical.choice, Quot.sound]", "MplLayout.Props.C28_none_frozen_counterexample": "depends on axioms: [propext, Classical.choice, Quot.sound]", "MplLayout.Props.C28_none_frozen_partial": "depends on axioms: [propext, Classical.choice, Quot.sound]", "MplLayout.Props.C29_number_partial": "depends on axioms: [propext, Classical.choice, Quot.sound]", "MplLayout.Props.C29_array_partial": "depends on axioms: [propext, Classical.choice, Quot.sound]", "MplLayout.Props.C29_one_entry_partial": "depends on axioms: [propext, Classical.choice, Quot.sound]", "MplLayout.Props.C29_bool_partial": "depends on axioms: [propext, Classical.choice, Quot.sound]", "MplLayout.Props.C29_compound_array_counterexample": "depends on axioms: [propext, Classical.choice, Quot.sound]", "MplLayout.Props.C29_deep_counterexample": "depends on axioms: [propext, Classical.choice, Quot.sound]", "MplLayout.Props.C30_map": "depends on axioms: [propext, Classical.choice, Quot.sound]", "MplLayout.Props.C31_sizes_partial": "depends on axioms: [propext, Classical.choice, Quot.sound]", "MplLayout.Props.C31_residual_length_partial": "depends on axioms: [propext, Classical.choice, Quot.sound]", "MplLayout.Props.C31_constructions": "depends on axioms: [propext, Classical.choice, Quot.sound]", "MplLayout.Props.C31_counterexample": "depends on axioms: [propext, Classical.choice, Quot.sound]", "MplLayout.Props.C32_horizontal": "depends on axioms: [propext, Classical.choice, Quot.sound]", "MplLayout.Props.C32_vertical": "depends on axioms: [propext, Classical.choice, Quot.sound]", "MplLayout.Props.C32_parallel": "depends on axioms: [propext, Classical.choice, Quot.sound]", "MplLayout.Props.C32_orthogonal": "depends on axioms: [propext, Classical.choice, Quot.sound]", "MplLayout.Props.C32_coincident": "depends on axioms: [propext, Classical.choice, Quot.sound]", "MplLayout.Props.C32_coincidentLines": "depends on axioms: [propext, Classical.choice, Quot.sound]", "MplLayout.Props.C32_coincidentLines_truth": "depends on axioms: [propext, Classical.choice, Quot.sound]", "MplLayout.Props.C33_box": "depends on axioms: [propext, Classical.choice, Quot.sound]", "MplLayout.Props.C34_xLength": "depends on axioms: [propext, Classical.choice, Quot.sound]", "MplLayout.Props.C34_yLength": "depends on axioms: [propext, Classical.choice, Quot.sound]", "MplLayout.Props.C34_directedLength": "depends on axioms: [propext, Classical.choice, Quot.sound]", "MplLayout.Props.C34_length": "depends on axioms: [propext, Classical.choice, Quot.sound]", "MplLayout.Props.C34_directedDistance": "depends on axioms: [propext, Classical.choice, Quot.sound]", "MplLayout.Props.C34_xDistance": "depends on axioms: [propext, Classical.choice, Quot.sound]", "MplLayout.Props.C34_yDistance": "depends on axioms: [propext, Classical.choice, Quot.sound]", "MplLayout.Props.C34_midpointXDistance": "depends on axioms: [propext, Classical.choice, Quot.sound]", "MplLayout.Props.C34_midpointYDistance": "depends on axioms: [propext, Classical.choice, Quot.sound]", "MplLayout.Props.C34_fix": "depends on axioms: [propext, Classical.choice, Quot.sound]", "MplLayout.Props.C34_width": "depends on axioms: [propext, Classical.choice, Quot.sound]", "MplLayout.Props.C34_height": "depends on axioms: [propext, Classical.choice, Quot.sound]", "MplLayout.Props.C34_rect": "depends on axioms: [propext, Classical.choice, Quot.sound]", "MplLayout.Props.C35_margin_value": "depends on axioms: [propext, Classical.choice, Quot.sound]", "MplLayout.Props.C35_innerMargin": "depends on axioms: [propext, Classical.choice, Quot.sound]", "MplLayout.Props.C35_outerMargin": "depends on axioms: [propext, Classical.choice, Quot.sound]", "MplLayout.Props.C35_outerMargin_swap": "depends on axioms: [propext, Classical.choice, Quot.sound]", "MplLayout.Props.C35_margins_add_up": "depends on axioms: [propext, Classical.choice, Quot.sound]", "MplLayout.Props.C36_collinear_partial": "depends on axioms: [propext, Classical.choice, Quot.sound]", "MplLayout.Props.C36_degenerate_counterexample": "depends on axioms: [propext, Classical.choice, Quot.sound]", "MplLayout.Props.C36_degenerate_vacuous": "depends on axioms: [propext, Classical.choice, Quot.sound]", "MplLayout.Props.C37_rectilinearGrid": "depends on axioms: [propext, Classical.choice, Quot.sound]", "MplLayout.Props.C38_grid": "depends on axioms: [propext, Classical.choice, Quot.sound]", "MplLayout.Props.C39_pointOnLine": "depends on axioms: [propext, Classical.choice, Quot.sound]", "MplLayout.Props.C39_pointToLine": "depends on axioms: [propext, Classical.choice, Quot.sound]", "MplLayout.Props.C39_pythagoras": "depends on axioms: [propext, Classical.choice, Quot.sound]", "MplLayout.Props.C39_decomposition": "depends on axioms: [propext, Classical.choice, Quot.sound]", "MplLayout.Props.C39_reverse": "depends on axioms: [propext, Classical.choice, Quot.sound]", "MplLayout.Props.C39_constraints": "depends on axioms: [propext, Classical.choice, Quot.sound]", "MplLayout.Props.C39_truth": "depends on axioms: [propext, Classical.choice, Quot.sound]", "MplLayout.Props.C39_no_truth": "depends on axioms: [propext, Classical.choice, Quot.sound]", "MplLayout.Props.C40_angle_partial": "depends on axioms: [propext, Classical.choice, Quot.sound]", "MplLayout.Props.C40_angle_in_range_partial": "depends on axioms: [propext, Classical.choice, Quot.sound]", "MplLayout.Props.C40_range_counterexample": "depends on axioms: [propext, Classical.choice, Quot.sound]", "MplLayout.Props.C40_constraint_sound": "depends on axioms: [propext, Classical.choice, Quot.sound]", "MplLayout.Props.C41_relativeLength": "depends on axioms: [propext, Classical.choice, Quot.sound]", "MplLayout.Props.C41_aspectRatio_value": "depends on axioms: [propext, Classical.choice, Quot.sound]", "MplLayout.Props.C41_aspectRatio": "depends on axioms: [propext, Classical.choice, Quot.sound]", "MplLayout.Props.C41_relativePointOnLine": "depends on axioms: [propext, Classical.choice, Quot.sound]", "MplLayout.Props.C42_translation": "depends on axioms: [propext, Classical.choice, Quot.sound]", "MplLayout.Props.C42_fix_moves": "depends on axioms: [propext, Classical.choice, Quot.sound]", "MplLayout.Props.C43_constraint": "depends on axioms: [propext, Classical.choice, Quot.sound]", "MplLayout.Props.C43_constraint_twin": "depends on axioms: [propext, Classical.choice, Quot.sound]", "MplLayout.Props.C43_detection": "depends on axioms: [propext, Classical.choice, Quot.sound]", "MplLayout.Props.C43_drawn_partial": "depends on axioms: [propext, Classical.choice, Quot.sound]", "MplLayout.Props.C43_flipped_counterexample": "depends on axioms: [propext, Classical.choice, Quot.sound]", "MplLayout.Props.C44_x": "depends on axioms: [propext, Classical.choice, Quot.sound]", "MplLayout.Props.C44_y": "depends on axioms: [propext, Classical.choice, Quot.sound]", "MplLayout.Props.C45_measure_partial": "depends on axioms: [propext, Classical.choice, Quot.sound]", "MplLayout.Props.C45_restores_partial": "depends on axioms: [propext, Classical.choice, Quot.sound]", "MplLayout.Props.C45_counterexample": "depends on axioms: [propext, Classical.choice, Quot.sound]", "MplLayout.Props.C45_constraint": "depends on axioms: [propext, Classical.choice, Quot.sound]", "MplLayout.Props.C45_constraint_none": "depends on axioms: [propext, Classical.choice, Quot.sound]", "MplLayout.Props.C46_idx_two_dim_partial": "depends on axioms: [propext, Classical.choice, Quot.sound]", "MplLayout.Props.C46_idx_one_dim_partial": "depends on axioms: [propext]", "MplLayout.Props.C46_three_dim_counterexample": "depends on axioms: [propext]", "MplLayout.Props.C46_exactly": "depends on axioms: [propext, Quot.sound]", "MplLayout.Props.C47_paired_partial": "depends on axioms: [propext, Classical.choice, Quot.sound]", "MplLayout.Props.C47_shipped_partial": "depends on axioms: [propext, Classical.choice, Quot.sound]", "MplLayout.Props.C47_lengths_partial": "depends on axioms: [propext, Classical.choice, Quot.sound]", "MplLayout.Props.C47_own_arguments_partial": "depends on axioms: [propext, Classical.choice, Quot.sound]", "MplLayout.Props.C47_counterexample": "depends on axioms: [propext, Classical.choice, Quot.sound]", "MplLayout.Props.C47_counterexample_accepted": "depends on axioms: [propext, Classical.choice, Quot.sound]", "MplLayout.Props.C48_shipped_partial": "depends on axioms: [propext, Classical.choice, Quot.sound]", "MplLayout.Props.C48_own_keys_partial": "depends on axioms: [propext, Classical.choice, Quot.sound]", "MplLayout.Props.C48_counterexample": "depends on axioms: [propext, Classical.choice, Quot.sound]", "MplLayout.Props.C49_add_prim": "depends on axioms: [propext]", "MplLayout.Props.C49_add_constraint_partial": "depends on axioms: [propext, Classical.choice, Quot.sound]", "MplLayout.Props.C49_shipped_partial": "depends on axioms: [propext, Classical.choice, Quot.sound]", "MplLayout.Props.C49_refused": "depends on axioms: [propext, Classical.choice, Quot.sound]", "MplLayout.Props.C49_nothing_lost": "depends on axioms: [propext, Classical.choice, Quot.sound]", "MplLayout.Props.C49_counterexample": "depends on axioms: [propext, Classical.choice, Quot.sound]", "MplLayout.Props.C50_residual_partial": "depends on axioms: [propext, Classical.choice, Quot.sound]", "MplLayout.Props.C50_shipped_partial": "depends on axioms: [propext, Classical.choice, Quot.sound]", "MplLayout.Props.C50_counterexample": "depends on axioms: [propext, Classical.choice, Quot.sound]", "MplLayout.Props.C51_auto_terminates": "depends on axioms: [propext, Classical.choice, Quot.sound]", "MplLayout.Props.C51_auto_key": "depends on axioms: [propext, Classical.choice, Quot.sound]", "MplLayout.Props.C51_explicit_key": "depends on axioms: [propext, Classical.choice, Quot.sound]", "MplLayout.Props.C51_distinct": "depends on axioms: [propext, Classical.choice, Quot.sound]", "MplLayout.Props.C52_refreshed_partial": "depends on axioms: [propext, Classical.choice, Quot.sound]", "MplLayout.Props.C52_succeeds_partial": "depends on axioms: [propext, Classical.choice, Quot.sound]", "MplLayout.Props.C52_counterexample_pairing": "depends on axioms: [propext, Classical.choice, Quot.sound]", "MplLayout.Props.C52_counterexample_nested": "depends on axioms: [propext, Classical.choice, Quot.sound]", "MplLayout.Props.C53_shared_partial": "depends on axioms: [propext, Quot.sound]", "MplLayout.Props.C53_call_partial": "depends on axioms: [propext, Quot.sound]", "MplLayout.Props.C53_other_layouts": "depends on axioms: [propext, Quot.sound]", "MplLayout.Props.C53_residual_partial": "depends on axioms: [propext, Classical.choice, Quot.sound]", "MplLayout.Props.C53_counterexample": "depends on axioms: [propext, Classical.choice, Quot.sound]", "MplLayout.Props.C54_add_prim": "depends on axioms: [propext, Quot.sound]", "MplLayout.Props.C54_history": "depends on axioms: [propext, Classical.choice, Quot.sound]", "MplLayout.Props.C54_constraint": "depends on axioms: [propext, Classical.choice, Quot.sound]", "MplLayout.Props.C55_terminates": "depends on axioms: [propext, Classical.choice, Quot.sound]", "MplLayout.Props.C55_history": "depends on axioms: [propext, Classical.choice, Quot.sound]", "MplLayout.Props.C55_norm": "depends on axioms: [propext, Classical.choice, Quot.sound]", "MplLayout.Props.C56_jax_partial": "depends on axioms: [propext, Classical.choice, Quot.sound]", "MplLayout.Props.C56_exactly": "depends on axioms: [propext, Classical.choice, Quot.sound]", "MplLayout.Props.C56_counterexample": "depends on axioms: [propext, Classical.choice, Quot.sound]", "MplLayout.Props.C56_shipped_partial": "depends on axioms: [propext, Classical.choice, Quot.sound]", "MplLayout.Props.C56_satisfied_partial": "depends on axioms: [propext, Classical.choice, Quot.sound]", "MplLayout.Props.C56_affine_partial": "depends on axioms: [propext, Classical.choice, Quot.sound]", "MplLayout.Props.C57_affine": "depends on axioms: [propext, Classical.choice, Quot.sound]", "MplLayout.Props.C57_constraints": "depends on axioms: [propext, Classical.choice, Quot.sound]", "MplLayout.Props.C58_newton": "depends on axioms: [propext, Classical.choice, Quot.sound]", "MplLayout.Props.C58_minimize": "depends on axioms: [propext, Classical.choice, Quot.sound]", "MplLayout.Props.C59_dispatch": "depends on axioms: [propext]", "MplLayout.Props.C59_no_constraints_counterexample": "depends on axioms: [propext, Classical.choice, Quot.sound]", "MplLayout.Props.C59_no_iterations_partial": "depends on axioms: [propext, Classical.choice, Quot.sound]", "MplLayout.Props.C60_history_partial": "depends on axioms: [propext, Classical.choice, Quot.sound]", "MplLayout.Props.C60_counterexample": "depends on axioms: [propext, Classical.choice, Quot.sound]", "MplLayout.Props.C61_lag_partial": "depends on axioms: [propext, Classical.choice, Quot.sound]", "MplLayout.Props.C61_counterexample": "depends on axioms: [propext, Classical.choice, Quot.sound]", "MplLayout.Props.C61_affine_partial": "depends on axioms: [propext, Classical.choice, Quot.sound]", "MplLayout.Props.C62_positions": "depends on axioms: [propext, Classical.choice, Quot.sound]", "MplLayout.Props.C62_whole": "depends on axioms: [propext, Classical.choice, Quot.sound]", "MplLayout.Props.C62_unit_square": "depends on axioms: [propext, Classical.choice, Quot.sound]", "MplLayout.Props.C63_translation_partial": "depends on axioms: [propext, Classical.choice, Quot.sound]", "MplLayout.Props.C63_labels_partial": "depends on axioms: [propext, Classical.choice, Quot.sound]", "MplLayout.Props.C63_counterexample": "depends on axioms: [propext, Classical.choice, Quot.sound]", "MplLayout.Props.C64_requested": "depends on axioms: [propext, Classical.choice, Quot.sound]", "MplLayout.Props.C64_default": "depends on axioms: [propext, Classical.choice, Quot.sound]", "MplLayout.Props.C64_duplicate": "depends on axioms: [propext, Classical.choice, Quot.sound]", "MplLayout.Props.C65_rotation_partial": "depends on axioms: [propext, Classical.choice, Quot.sound]", "MplLayout.Props.C65_violation": "depends on axioms: [propext, Classical.choice, Quot.sound]", "MplLayout.Props.C65_counterexample": "depends on axioms: [propext, Classical.choice, Quot.sound]", "MplLayout.Props.C66_each_once": "depends on axioms: [propext, Classical.choice, Quot.sound]", "MplLayout.Props.C66_opacity": "depends on axioms: [propext, Classical.choice, Quot.sound]", "MplLayout.Props.C66_shapes": "depends on axioms: [propext, Classical.choice, Quot.sound]", "MplLayout.Props.C66_succeeds": "depends on axioms: [propext, Classical.choice, Quot.sound]", "MplLayout.Props.C67_well_formed": "depends on axioms: [propext, Classical.choice, Quot.sound]", "MplLayout.Props.C67_shared": "depends on axioms: [propext, Classical.choice, Quot.sound]", "MplLayout.Props.C67_closed": "depends on axioms: [propext, Classical.choice, Quot.sound]", "MplLayout.Props.C68_solved": "depends on axioms: [propext, Classical.choice, Quot.sound]", "MplLayout.Props.C68_figure": "depends on axioms: [propext, Classical.choice, Quot.sound]", "MplLayout.Props.C68_readme": "depends on axioms: [propext, Classical.choice, Quot.sound]", "MplLayout.Props.C69_add_prim": "depends on axioms: [propext, Quot.sound]", "MplLayout.Props.C69_add_constraint": "depends on axioms: [propext, Classical.choice, Quot.sound]", "MplLayout.Props.C69_shipped": "depends on axioms: [propext, Classical.choice, Quot.sound]", "MplLayout.Props.C70_least_squares": "depends on axioms: [propext, Classical.choice, Quot.sound]", "MplLayout.Props.C70_representable": "depends on axioms: [propext, Classical.choice, Quot.sound]", "MplLayout.Props.C70_program": "depends on axioms: [propext, Classical.choice, Quot.sound]", "MplLayout.Props.C71_local_best": "depends on axioms: [propext, Classical.choice, Quot.sound]", "MplLayout.Props.C72_expression": "depends on axioms: [propext, Classical.choice, Quot.sound]", "MplLayout.Props.C72_number_counterexample": "depends on axioms: [propext]", "MplLayout.Props.C72_difference": "depends on axioms: [propext, Classical.choice, Quot.sound]", "MplLayout.Props.C72_linear": "depends on axioms: [propext, Classical.choice, Quot.sound]", "MplLayout.Props.C73_round_trip": "depends on axioms: [propext, Quot.sound]", "MplLayout.Props.C73_map": "depends on axioms: [propext, Quot.sound]", "MplLayout.Props.C73_map_map": "depends on axioms: [propext, Quot.sound]", "MplLayout.Props.C73_leaves": "depends on axioms: [propext, Quot.sound]", "MplLayout.Props.C73_leaf_count": "depends on axioms: [propext, Quot.sound]", "MplLayout.Props.C73_sorted": "depends on axioms: [propext, Quot.sound]", "MplLayout.Props.C73_common": "depends on axioms: [propext, Quot.sound]", "MplLayout.Props.C73_position_counterexample": "depends on axioms: [propext]", "MplLayout.Props.C74_order": "depends on axioms: [propext, Classical.choice, Quot.sound]", "MplLayout.Props.C74_demands": "depends on axioms: [propext, Classical.choice, Quot.sound]", "MplLayout.Props.C74_repetition": "depends on axioms: [propext, Classical.choice, Quot.sound]", "MplLayout.Props.C75_calls": "depends on axioms: [propext, Classical.choice, Quot.sound]", "MplLayout.Props.C75_translation": "depends on axioms: [propext, Classical.choice, Quot.sound]", "MplLayout.Props.C76_add_prim": "depends on axioms: [propext, Quot.sound]", "MplLayout.Props.C76_missing": "depends on axioms: [propext, Classical.choice, Quot.sound]", "MplLayout.Props.C76_wrong": "depends on axioms: [propext, Classical.choice, Quot.sound]", "MplLayout.Props.C76_key": "depends on axioms: [propext, Classical.choice, Quot.sound]", "MplLayout.Props.C76_accepted": "depends on axioms: [propext, Classical.choice, Quot.sound]", "MplLayout.Props.C76_cases": "depends on axioms: [propext, Classical.choice, Quot.sound]", "MplLayout.Props.C77_rebuild": "depends on axioms: [propext, Classical.choice, Quot.sound]", "MplLayout.Props.C77_solve": "depends on axioms: [propext, Classical.choice, Quot.sound]", "MplLayout.Props.C77_thickness": "depends on axioms: [propext, Classical.choice, Quot.sound]", "MplLayout.Props.C78_unseen": "depends on axioms: [propext, Classical.choice, Quot.sound]", "MplLayout.Props.C78_affine": "depends on axioms: [propext, Classical.choice, Quot.sound]", "MplLayout.Props.C79_lookup": "depends on axioms: [propext]", "MplLayout.Props.C79_places": "depends on axioms: [propext, Quot.sound]", "MplLayout.Props.C79_add": "depends on axioms: [propext, Quot.sound]", "MplLayout.Props.C79_once": "depends on axioms: [propext, Quot.sound]", "MplLayout.Props.C79_cycle": "depends on axioms: [propext, Classical.choice, Quot.sound]", "MplLayout.Props.C79_program": "depends on axioms: [propext, Classical.choice, Quot.sound]", "MplLayout.Props.C79_add_prim": "depends on axioms: [propext, Quot.sound]", "MplLayout.Props.C79_shared_corner": "depends on axioms: [propext, Classical.choice, Quot.sound]", "MplLayout.Props.C79_self": "depends on axioms: [propext, Classical.choice, Quot.sound]", "MplLayout.Props.C80_independent": "depends on axioms: [propext, Classical.choice, Quot.sound]", "MplLayout.Props.C80_extend": "depends on axioms: [propext, Classical.choice, Quot.sound]", "MplLayout.Props.C81_tutorial": "depends on axioms: [propext, Classical.choice, Quot.sound]", "MplLayout.Props.C82_quadratic": "depends on axioms: [propext, Classical.choice, Quot.sound]", "MplLayout.Props.C83_anywhere": "depends on axioms: [propext, Classical.choice, Quot.sound]", "MplLayout.Props.C83_again": "depends on axioms: [propext, Classical.choice, Quot.sound]", "MplLayout.Props.C83_stable": "depends on axioms: [propext, Classical.choice, Quot.sound]", "MplLayout.Props.C84_calls": "depends on axioms: [propext, Classical.choice, Quot.sound]", "MplLayout.Props.C84_unique": "depends on axioms: [propext, Classical.choice, Quot.sound]", "MplLayout.Props.C84_exists": "depends on axioms: [propext, Classical.choice, Quot.sound]", "MplLayout.Props.C84_mirror": "depends on axioms: [propext, Classical.choice, Quot.sound]", "MplLayout.Props.C84_drawing": "depends on axioms: [propext, Classical.choice, Quot.sound]", "MplLayout.Props.C85_satisfied": "depends on axioms: [propext, Classical.choice, Quot.sound]", "MplLayout.Props.C85_calls": "depends on axioms: [propext, Classical.choice, Quot.sound]", "MplLayout.Props.C85_solution": "depends on axioms: [propext, Classical.choice, Quot.sound]", "MplLayout.Props.C85_solved": "depends on axioms: [propext, Classical.choice, Quot.sound]", "MplLayout.Props.C85_drawing": "depends on axioms: [propext, Classical.choice, Quot.sound]", "MplLayout.Props.C86_mixture": "depends on axioms: [propext, Classical.choice, Quot.sound]", "MplLayout.Props.C87_already_met": "depends on axioms: [propext, Classical.choice, Quot.sound]", "MplLayout.Props.C87_monotone": "depends on axioms: [propext, Classical.choice, Quot.sound]", "MplLayout.Props.C88_accepted": "depends on axioms: [propext, Classical.choice, Quot.sound]", "MplLayout.Props.C88_rejected": "depends on axioms: [propext, Classical.choice, Quot.sound]", "MplLayout.Props.C88_point_partial": "depends on axioms: [propext, Classical.choice, Quot.sound]", "MplLayout.Props.C88_counterexample": "depends on axioms: [propext, Classical.choice, Quot.sound]", "MplLayout.Props.C88_jax_counterexample": "depends on axioms: [propext, Classical.choice, Quot.sound]", "MplLayout.Props.C88_agrees": "depends on axioms: [propext, Classical.choice, Quot.sound]", "MplLayout.Props.C89_rounding": "depends on axioms: [propext, Classical.choice, Quot.sound]", "MplLayout.Props.C90_calls": "depends on axioms: [propext, Quot.sound]", "MplLayout.Props.C90_solve": "depends on axioms: [propext, Classical.choice, Quot.sound]", "MplLayout.Props.C90_drawing": "depends on axioms: [propext, Quot.sound]", "MplLayout.Props.C90_axes_names": "depends on axioms: [propext]", "MplLayout.Props.C91_colors": "depends on axioms: [propext, Classical.choice, Quot.sound]", "MplLayout.Props.C91_same_color": "depends on axioms: [propext, Classical.choice, Quot.sound]", "MplLayout.Props.C91_labels": "depends on axioms: [propext, Classical.choice, Quot.sound]", "MplLayout.Props.C92_behaviour": "depends on axioms: [propext, Classical.choice, Quot.sound]", "MplLayout.Props.C92_array_partial": "depends on axioms: [propext, Classical.choice, Quot.sound]", "MplLayout.Props.C92_counterexample": "depends on axioms: [propext, Classical.choice, Quot.sound]", "MplLayout.Props.C93_calls": "depends on axioms: [propext, Classical.choice, Quot.sound]", "MplLayout.Props.C93_placed": "depends on axioms: [propext, Classical.choice, Quot.sound]", "MplLayout.Props.C93_demands": "depends on axioms: [propext, Classical.choice, Quot.sound]", "MplLayout.Props.C93_solutions": "depends on axioms: [propext, Classical.choice, Quot.sound]", "MplLayout.Props.C93_anywhere": "depends on axioms: [propext, Classical.choice, Quot.sound]", "MplLayout.Props.C93_exists": "depends on axioms: [propext, Classical.choice, Quot.sound]", "MplLayout.Props.C93_solve": "depends on axioms: [propext, Classical.choice, Quot.sound]", "MplLayout.Props.C93_drawing": "depends on axioms: [propext, Classical.choice, Quot.sound]", "MplLayout.Props.C93_labels": "depends on axioms: [propext, Classical.choice, Quot.sound]", "MplLayout.Props.C93_ticks": "depends on axioms: [propext, Classical.choice, Quot.sound]", "MplLayout.Props.C93_twin_axes": "depends on axioms: [propext, Classical.choice, Quot.sound]", "MplLayout.Props.C93_two_axes": "depends on axioms: [propext, Classical.choice, Quot.sound]", "MplLayout.Props.C93_one_axes": "depends on axioms: [propext, Classical.choice, Quot.sound]", "MplLayout.Props.C93_contour_colorbar": "depends on axioms: [propext, Classical.choice, Quot.sound]", "MplLayout.Props.C93_ten_rules": "depends on axioms: [propext, Classical.choice, Quot.sound]", "MplLayout.Props.C94_reuse_partial": "depends on axioms: [propext, Classical.choice, Quot.sound]", "MplLayout.Props.C94_made": "depends on axioms: [propext, Classical.choice, Quot.sound]", "MplLayout.Props.C94_deep_counterexample": "depends on axioms: [propext, Classical.choice, Quot.sound]", "MplLayout.Props.C95_names": "depends on axioms: [propext, Classical.choice, Quot.sound]", "MplLayout.Props.C95_opposite": "depends on axioms: [propext]", "MplLayout.Props.C95_shapes": "depends on axioms: [propext, Classical.choice, Quot.sound]", "MplLayout.Props.C95_marginArray_partial": "depends on axioms: [propext, Classical.choice, Quot.sound]", "MplLayout.Props.C95_marginArray_counterexample": "depends on axioms: [propext, Classical.choice, Quot.sound]", "MplLayout.Props.C95_positionAxis_partial": "depends on axioms: [propext, Classical.choice, Quot.sound]", "MplLayout.Props.C95_thickness_partial": "depends on axioms: [propext, Classical.choice, Quot.sound]", "MplLayout.Props.C95_thickness_counterexample": "depends on axioms: [propext, Classical.choice, Quot.sound]", "MplLayout.Props.C95_positionAxis_counterexample": "depends on axioms: [propext, Classical.choice, Quot.sound]", "MplLayout.Props.C95_refresh_counterexample": "depends on axioms: [propext, Classical.choice, Quot.sound]", "MplLayout.Props.C96_finite": "depends on axioms: [propext, Classical.choice, Quot.sound]", "MplLayout.Props.C96_finite_is_jacobian": "depends on axioms: [propext, Classical.choice, Quot.sound]", "MplLayout.Props.C96_smooth": "depends on axioms: [propext, Classical.choice, Quot.sound]", "MplLayout.Props.C96_exact": "depends on axioms: [propext, Classical.choice, Quot.sound]", "MplLayout.Props.C96_values": "depends on axioms: [propext, Classical.choice, Quot.sound]", "MplLayout.Props.C96_shape": "depends on axioms: [propext, Classical.choice, Quot.sound]", "MplLayout.Props.C96_jump": "depends on axioms: [propext, Classical.choice, Quot.sound]", "MplLayout.Props.C96_dot": "depends on axioms: [propext, Classical.choice, Quot.sound]", "MplLayout.Props.C96_newton_stays": "depends on axioms: [propext, Classical.choice, Quot.sound]", "MplLayout.Props.C96_newton_quadratic": "depends on axioms: [propext, Classical.choice, Quot.sound]", "MplLayout.Props.C96_newton_transfer": "depends on axioms: [propext, Classical.choice, Quot.sound]", "MplLayout.Props.C97_finite_is_gradient": "depends on axioms: [propext, Classical.choice, Quot.sound]", "MplLayout.Props.C97_gradient": "depends on axioms: [propext, Classical.choice, Quot.sound]", "MplLayout.Props.C97_transposed": "depends on axioms: [propext, Classical.choice, Quot.sound]", "MplLayout.Props.C97_values": "depends on axioms: [propext, Classical.choice, Quot.sound]", "MplLayout.Props.C97_downhill": "depends on axioms: [propext, Classical.choice, Quot.sound]", "MplLayout.Props.C97_stationary": "depends on axioms: [propext, Classical.choice, Quot.sound]", "MplLayout.Props.C97_minimize_stays": "depends on axioms: [propext, Classical.choice, Quot.sound]", "MplLayout.Props.C97_tolerance_counterexample": "depends on axioms: [propext, Classical.choice, Quot.sound]", "MplLayout.Props.C97_forward": "depends on axioms: [propext, Classical.choice, Quot.sound]", "MplLayout.Props.C97_dot": "depends on axioms: [propext, Classical.choice, Quot.sound]", "MplLayout.Props.C98_repr_partial": "depends on axioms: [propext, Classical.choice, Quot.sound]", "MplLayout.Props.C98_alike": "depends on axioms: [propext, Quot.sound]", "MplLayout.Props.C98_counterexample": "depends on axioms: [propext]", "MplLayout.Props.C99_coincident": "depends on axioms: [propext, Classical.choice, Quot.sound]", "MplLayout.Props.C99_coincidentLines": "depends on axioms: [propext, Classical.choice, Quot.sound]", "MplLayout.Props.C99_horizontal": "depends on axioms: [propext, Classical.choice, Quot.sound]", "MplLayout.Props.C99_vertical": "depends on axioms: [propext, Classical.choice, Quot.sound]", "MplLayout.Props.C99_box": "depends on axioms: [propext, Classical.choice, Quot.sound]", "MplLayout.Props.C99_fix": "depends on axioms: [propext, Classical.choice, Quot.sound]", "MplLayout.Props.C99_xLength": "depends on axioms: [propext, Classical.choice, Quot.sound]", "MplLayout.Props.C99_yLength": "depends on axioms: [propext, Classical.choice, Quot.sound]", "MplLayout.Props.C99_xDistance": "depends on axioms: [propext, Classical.choice, Quot.sound]", "MplLayout.Props.C99_yDistance": "depends on axioms: [propext, Classical.choice, Quot.sound]", "MplLayout.Props.C99_width": "depends on axioms: [propext, Classical.choice, Quot.sound]", "MplLayout.Props.C99_height": "depends on axioms: [propext, Classical.choice, Quot.sound]", "MplLayout.Props.C99_margin": "depends on axioms: [propext, Classical.choice, Quot.sound]", "MplLayout.Props.C99_ieee": "depends on axioms: [propext, Classical.choice, Quot.sound]", "MplLayout.Props.C99_products_underflow": "depends on axioms: [propext, Classical.choice, Quot.sound]", "MplLayout.Props.C99_flush_to_zero": "depends on axioms: [propext, Classical.choice, Quot.sound]", "MplLayout.Props.C99_align": "depends on axioms: [propext, Classical.choice, Quot.sound]", "MplLayout.Props.C99_rectilinearGrid": "depends on axioms: [propext, Classical.choice, Quot.sound]", "MplLayout.Props.C99_outerMarginArray": "depends on axioms: [propext, Classical.choice, Quot.sound]", "MplLayout.Props.C99_coincidentOutwardFaces": "depends on axioms: [propext, Classical.choice, Quot.sound]", "MplLayout.Props.C99_positionAxis": "depends on axioms: [propext, Classical.choice, Quot.sound]", "MplLayout.Props.C99_positionAxis_twin": "depends on axioms: [propext, Classical.choice, Quot.sound]", "MplLayout.Props.C99_unit": "depends on axioms: [propext, Classical.choice, Quot.sound]", "MplLayout.Props.C99_squares": "depends on axioms: [propext, Classical.choice, Quot.sound]", "MplLayout.Props.C99_length": "depends on axioms: [propext, Classical.choice, Quot.sound]", "MplLayout.Props.C99_relativeLength": "depends on axioms: [propext, Classical.choice, Quot.sound]", "MplLayout.Props.C99_grid": "depends on axioms: [propext, Classical.choice, Quot.sound]", "MplLayout.Props.C99_squares64": "depends on axioms: [propext, Classical.choice, Quot.sound]", "MplLayout.Props.C99_conversion": "depends on axioms: [propext, Classical.choice, Quot.sound]", "MplLayout.Props.C99_single_precision": "depends on axioms: [propext, Classical.choice, Quot.sound]", "MplLayout.Props.C100_left_alone": "depends on axioms: [propext, Classical.choice, Quot.sound]", "MplLayout.Props.C100_all_constraints": "depends on axioms: [propext, Classical.choice, Quot.sound]", "MplLayout.Props.C101_first_step": "depends on axioms: [propext, Classical.choice, Quot.sound]", "MplLayout.Props.C101_aspect_step": "depends on axioms: [propext, Classical.choice, Quot.sound]", "MplLayout.Props.C101_aspect_counterexample": "depends on axioms: [propext, Classical.choice, Quot.sound]", "MplLayout.Props.C101_onestep": "depends on axioms: [propext, Classical.choice, Quot.sound]", "MplLayout.Props.C101_upright": "depends on axioms: [propext, Classical.choice, Quot.sound]", "MplLayout.Props.C101_two_axes": "depends on axioms: [propext, Classical.choice, Quot.sound]", "MplLayout.Props.C101_contour": "depends on axioms: [propext, Classical.choice, Quot.sound]", "MplLayout.Props.C101_ten_rules": "depends on axioms: [propext, Classical.choice, Quot.sound]", "MplLayout.Props.C101_grid_axes": "depends on axioms: [propext, Classical.choice, Quot.sound]", "MplLayout.Props.C101_profile": "depends on axioms: [propext, Classical.choice, Quot.sound]", "MplLayout.Props.C101_profile_flipped": "depends on axioms: [propext, Classical.choice, Quot.sound]", "MplLayout.Props.C102_twostep": "depends on axioms: [propext, Classical.choice, Quot.sound]", "MplLayout.Props.C102_tutorial": "depends on axioms: [propext, Classical.choice, Quot.sound]", "MplLayout.Props.C103_update": "depends on axioms: [propext, Classical.choice, Quot.sound]", "MplLayout.Props.C103_tutorial": "depends on axioms: [propext, Classical.choice, Quot.sound]", "MplLayout.Props.C103_ten_rules": "depends on axioms: [propext, Classical.choice, Quot.sound]", "MplLayout.Props.C104_steps": "depends on axioms: [propext, Classical.choice, Quot.sound]", "MplLayout.Props.C104_heights": "depends on axioms: [propext, Classical.choice, Quot.sound]", "MplLayout.Props.C104_converges": "depends on axioms: [propext, Classical.choice, Quot.sound]", "MplLayout.Props.C104_turned": "depends on axioms: [propext, Classical.choice, Quot.sound]", "MplLayout.Props.C104_never_counterexample": "depends on axioms: [propext, Classical.choice, Quot.sound]"}