{
 "claims": [
  {
   "property": "C01",
   "status": "proved",
   "theorems": [
    "MplLayout.Props.C01_unflatten_flatten",
    "MplLayout.Props.C01_flatten_injective"
   ],
   "note": ""
  },
  {
   "property": "C02",
   "status": "proved",
   "theorems": [
    "MplLayout.Props.C02_iter_flat",
    "MplLayout.Props.C02_iter_flat_key",
    "MplLayout.Props.C02_slash_collision"
   ],
   "note": "For trees whose child keys contain no '/' (all trees built with add_child, C04_add_child_good); collision otherwise: C02_slash_collision."
  },
  {
   "property": "C03",
   "status": "proved",
   "theorems": [
    "MplLayout.Props.C03_lookup_composes",
    "MplLayout.Props.C03_lookup_error",
    "MplLayout.Props.C03_lookup_single",
    "MplLayout.Props.C03_lookup_path"
   ],
   "note": ""
  },
  {
   "property": "C04",
   "status": "proved",
   "theorems": [
    "MplLayout.Props.C04_add_child",
    "MplLayout.Props.C04_add_child_good"
   ],
   "note": ""
  },
  {
   "property": "C05",
   "status": "proved",
   "theorems": [
    "MplLayout.Props.C05_add_child_outcome"
   ],
   "note": ""
  },
  {
   "property": "C06",
   "status": "partial",
   "theorems": [
    "MplLayout.Props.C06_setitem_partial",
    "MplLayout.Props.C06_trailing_slash",
    "MplLayout.Props.C06_leading_slash"
   ],
   "note": "Proved for keys without empty components; for 'b/' and '/x' the code violates the property (C06_trailing_slash, C06_leading_slash)."
  },
  {
   "property": "C07",
   "status": "partial",
   "theorems": [
    "MplLayout.Props.C07_contains_partial",
    "MplLayout.Props.C07_raises",
    "MplLayout.Props.C07_trailing_slash"
   ],
   "note": "Exact characterisation of membership for keys without empty components; the code violates the full property: it raises for a missing ancestor (C07_raises) and answers True for 'b/' (C07_trailing_slash)."
  },
  {
   "property": "C08",
   "status": "proved",
   "theorems": [
    "MplLayout.Props.C08_map",
    "MplLayout.Props.C08_map_map",
    "MplLayout.Props.C08_copy"
   ],
   "note": ""
  },
  {
   "property": "C09",
   "status": "proved",
   "theorems": [
    "MplLayout.Props.C09_accumulate",
    "MplLayout.Props.C09_accumulate_sum"
   ],
   "note": ""
  },
  {
   "property": "C10",
   "status": "proved",
   "theorems": [
    "MplLayout.Props.C10_node_height",
    "MplLayout.Props.C10_node_height_keys"
   ],
   "note": ""
  },
  {
   "property": "C11",
   "status": "proved",
   "theorems": [
    "MplLayout.Props.C11_getitem_int",
    "MplLayout.Props.C11_getitem_out_of_range",
    "MplLayout.Props.C11_getitem_slice",
    "MplLayout.Props.C11_getitem_slice_any",
    "MplLayout.Props.C11_getitem_step",
    "MplLayout.Props.C11_reversed",
    "MplLayout.Props.C11_step_one",
    "MplLayout.Props.C11_getitem_kinds"
   ],
   "note": ""
  },
  {
   "property": "C12",
   "status": "proved",
   "theorems": [
    "MplLayout.Props.C12_fresh_key"
   ],
   "note": ""
  },
  {
   "property": "C13",
   "status": "proved",
   "theorems": [
    "MplLayout.Props.C13_add_item",
    "MplLayout.Props.C13_no_repeat",
    "MplLayout.Props.C13_cross_category"
   ],
   "note": ""
  },
  {
   "property": "C14",
   "status": "proved",
   "theorems": [
    "MplLayout.Props.C14_polygon",
    "MplLayout.Props.C14_quadrilateral",
    "MplLayout.Props.C14_default_quadrilateral",
    "MplLayout.Props.C14_point",
    "MplLayout.Props.C14_default_line",
    "MplLayout.Props.C14_default_polygon"
   ],
   "note": ""
  },
  {
   "property": "C15",
   "status": "proved",
   "theorems": [
    "MplLayout.Props.C15_classes",
    "MplLayout.Props.C15_signature",
    "MplLayout.Props.C15_shipped",
    "MplLayout.Props.C15_line_drops_extra"
   ],
   "note": "Any class table with sensible signatures, and the shipped classes spelled out; note C15_line_drops_extra: Line ignores a third supplied primitive (its children still match)."
  },
  {
   "property": "C16",
   "status": "partial",
   "theorems": [
    "MplLayout.Props.C16_default_parts",
    "MplLayout.Props.C16_supplied_partial",
    "MplLayout.Props.C16_surplus_dropped",
    "MplLayout.Props.C16_missing_accepted"
   ],
   "note": "Default axes have exactly the requested parts; supplied primitives are all used when their number matches. The code violates 'all used or rejected' (C16_surplus_dropped, C16_missing_accepted): zip truncates."
  },
  {
   "property": "C17",
   "status": "proved",
   "theorems": [
    "MplLayout.Props.C17_unique_values"
   ],
   "note": "For trees with '/'-free keys; the identity function must determine the value inside the tree (IdentOK), which Python's id does."
  },
  {
   "property": "C18",
   "status": "proved",
   "theorems": [
    "MplLayout.Props.C18_extract_rebuild"
   ],
   "note": "For trees with '/'-free keys; the identity function must determine the value inside the tree (IdentOK), which Python's id does."
  },
  {
   "property": "C19",
   "status": "proved",
   "theorems": [
    "MplLayout.Props.C19_rebuild",
    "MplLayout.Props.C19_sharing",
    "MplLayout.Props.C19_polygon_stays_closed"
   ],
   "note": "For trees with '/'-free keys; the identity function must determine the value inside the tree (IdentOK), which Python's id does."
  },
  {
   "property": "C20",
   "status": "proved",
   "theorems": [
    "MplLayout.Props.C20_unpack_pack",
    "MplLayout.Props.C20_pack_unpack"
   ],
   "note": ""
  },
  {
   "property": "C21",
   "status": "partial",
   "theorems": [
    "MplLayout.Props.C21_call_is_recursive_evaluation_partial",
    "MplLayout.Props.C21_grid_too_few_margins"
   ],
   "note": "Proved whenever every child is assigned keys and parameters (Aligned). The code violates the full property for a Grid with too few margins, where parameters shift to other nodes (C21_grid_too_few_margins)."
  },
  {
   "property": "C22",
   "status": "proved",
   "theorems": [
    "MplLayout.Props.C22_bad_arguments",
    "MplLayout.Props.C22_validation"
   ],
   "note": ""
  },
  {
   "property": "C23",
   "status": "proved",
   "theorems": [
    "MplLayout.Props.C23_chunk"
   ],
   "note": ""
  },
  {
   "property": "C24",
   "status": "partial",
   "theorems": [
    "MplLayout.Props.C24_sum_partial",
    "MplLayout.Props.C24_sum_of_leaves_partial",
    "MplLayout.Props.C24_compound_counterexample",
    "MplLayout.Props.C24_shared_partial",
    "MplLayout.Props.C24_same_primitives_partial"
   ],
   "note": "Proved when the second operand's children take no primitives (all leaf constructions), and for compound operands on the same primitives (C24_shared_partial, C24_same_primitives_partial: all shipped compound constructions). False of the code for compound second operands on other primitives: Width()+Width() (C24_compound_counterexample)."
  },
  {
   "property": "C25",
   "status": "proved",
   "theorems": [
    "MplLayout.Props.C25_sum_shape"
   ],
   "note": ""
  },
  {
   "property": "C26",
   "status": "partial",
   "theorems": [
    "MplLayout.Props.C26_number_multiple_partial",
    "MplLayout.Props.C26_negative",
    "MplLayout.Props.C26_scalar_multiple",
    "MplLayout.Props.C26_not_scalar",
    "MplLayout.Props.C26_scalar_times_number",
    "MplLayout.Props.C26_neg_one_mul"
   ],
   "note": "Proved for every tree in which declared and supplied parameter counts agree, for numbers, Scalar() and negation; the code violates the property for Scalar()*2.0, which raises AttributeError (C26_scalar_times_number)."
  },
  {
   "property": "C27",
   "status": "proved",
   "theorems": [
    "MplLayout.Props.C27_number_power",
    "MplLayout.Props.C27_scalar_power",
    "MplLayout.Props.C27_quotient",
    "MplLayout.Props.C27_recip",
    "MplLayout.Props.C27_real_quotient",
    "MplLayout.Props.C27_real_power"
   ],
   "note": "For every tree in which declared and supplied parameter counts agree; division over the reals for nonzero divisors."
  },
  {
   "property": "C28",
   "status": "partial",
   "theorems": [
    "MplLayout.Props.C28_freeze_partial",
    "MplLayout.Props.C28_none_frozen_counterexample",
    "MplLayout.Props.C28_none_frozen_partial"
   ],
   "note": "Proved for 1..all frozen parameters (and for none if the construction has no parameters); the code violates the property for none frozen otherwise (C28_none_frozen_counterexample)."
  },
  {
   "property": "C29",
   "status": "partial",
   "theorems": [
    "MplLayout.Props.C29_number_partial",
    "MplLayout.Props.C29_array_partial",
    "MplLayout.Props.C29_one_entry_partial",
    "MplLayout.Props.C29_bool_partial",
    "MplLayout.Props.C29_compound_array_counterexample",
    "MplLayout.Props.C29_deep_counterexample"
   ],
   "note": "Numbers: constructions whose children are leaves; arrays: leaf constructions. The code violates the property for arrays on compounds and for deeper trees (C29_compound_array_counterexample, C29_deep_counterexample)."
  },
  {
   "property": "C30",
   "status": "proved",
   "theorems": [
    "MplLayout.Props.C30_map"
   ],
   "note": "For constructions with at least one primitive and 1+M <= N."
  },
  {
   "property": "C31",
   "status": "partial",
   "theorems": [
    "MplLayout.Props.C31_sizes_partial",
    "MplLayout.Props.C31_residual_length_partial",
    "MplLayout.Props.C31_constructions",
    "MplLayout.Props.C31_counterexample"
   ],
   "note": "Proved for every shipped constraint that contains no CoincidentLines, of every grid size, on well-formed plane primitives and parameters of sensible sizes (C31_sizes_partial), with the length of the whole residual (C31_residual_length_partial), and for the leaf constructions. Missing: CoincidentLines (and CoincidentOutwardFaces, PositionXAxis/YAxis, which contain it) declare 2 entries and return 4, so the full claim is false of the code (C31_counterexample)."
  },
  {
   "property": "C32",
   "status": "proved",
   "theorems": [
    "MplLayout.Props.C32_horizontal",
    "MplLayout.Props.C32_vertical",
    "MplLayout.Props.C32_parallel",
    "MplLayout.Props.C32_orthogonal",
    "MplLayout.Props.C32_coincident",
    "MplLayout.Props.C32_coincidentLines",
    "MplLayout.Props.C32_coincidentLines_truth"
   ],
   "note": ""
  },
  {
   "property": "C33",
   "status": "proved",
   "theorems": [
    "MplLayout.Props.C33_box"
   ],
   "note": ""
  },
  {
   "property": "C34",
   "status": "proved",
   "theorems": [
    "MplLayout.Props.C34_xLength",
    "MplLayout.Props.C34_yLength",
    "MplLayout.Props.C34_directedLength",
    "MplLayout.Props.C34_length",
    "MplLayout.Props.C34_directedDistance",
    "MplLayout.Props.C34_xDistance",
    "MplLayout.Props.C34_yDistance",
    "MplLayout.Props.C34_midpointXDistance",
    "MplLayout.Props.C34_midpointYDistance",
    "MplLayout.Props.C34_fix",
    "MplLayout.Props.C34_width",
    "MplLayout.Props.C34_height",
    "MplLayout.Props.C34_rect"
   ],
   "note": ""
  },
  {
   "property": "C35",
   "status": "proved",
   "theorems": [
    "MplLayout.Props.C35_margin_value",
    "MplLayout.Props.C35_innerMargin",
    "MplLayout.Props.C35_outerMargin",
    "MplLayout.Props.C35_outerMargin_swap",
    "MplLayout.Props.C35_margins_add_up"
   ],
   "note": ""
  },
  {
   "property": "C36",
   "status": "partial",
   "theorems": [
    "MplLayout.Props.C36_collinear_partial",
    "MplLayout.Props.C36_degenerate_counterexample",
    "MplLayout.Props.C36_degenerate_vacuous"
   ],
   "note": "Proved when the first line is nondegenerate; the code violates the property for a degenerate first line (C36_degenerate_counterexample)."
  },
  {
   "property": "C37",
   "status": "proved",
   "theorems": [
    "MplLayout.Props.C37_rectilinearGrid"
   ],
   "note": "For shapes with positive number of rows and columns and rectangles of nonzero size."
  },
  {
   "property": "C38",
   "status": "proved",
   "theorems": [
    "MplLayout.Props.C38_grid"
   ],
   "note": "For shapes with positive number of rows and columns and rectangles of nonzero size."
  },
  {
   "property": "C39",
   "status": "proved",
   "theorems": [
    "MplLayout.Props.C39_pointOnLine",
    "MplLayout.Props.C39_pointToLine",
    "MplLayout.Props.C39_pythagoras",
    "MplLayout.Props.C39_decomposition",
    "MplLayout.Props.C39_reverse",
    "MplLayout.Props.C39_constraints",
    "MplLayout.Props.C39_truth",
    "MplLayout.Props.C39_no_truth"
   ],
   "note": ""
  },
  {
   "property": "C40",
   "status": "partial",
   "theorems": [
    "MplLayout.Props.C40_angle_partial",
    "MplLayout.Props.C40_angle_in_range_partial",
    "MplLayout.Props.C40_range_counterexample",
    "MplLayout.Props.C40_constraint_sound"
   ],
   "note": "Proved: the value is the difference of polar angles, equal to the counter-clockwise angle up to one full turn, and the satisfied constraint rotates the first direction into the second. The code violates the range (-pi, pi] (C40_out_of_range counterexample)."
  },
  {
   "property": "C41",
   "status": "proved",
   "theorems": [
    "MplLayout.Props.C41_relativeLength",
    "MplLayout.Props.C41_aspectRatio_value",
    "MplLayout.Props.C41_aspectRatio",
    "MplLayout.Props.C41_relativePointOnLine"
   ],
   "note": ""
  },
  {
   "property": "C42",
   "status": "proved",
   "theorems": [
    "MplLayout.Props.C42_translation",
    "MplLayout.Props.C42_fix_moves"
   ],
   "note": "Every shipped constraint class (with its parameters) on planar primitives; C42_fix_moves shows Fix is the exception."
  },
  {
   "property": "C43",
   "status": "partial",
   "theorems": [
    "MplLayout.Props.C43_constraint",
    "MplLayout.Props.C43_constraint_twin",
    "MplLayout.Props.C43_detection",
    "MplLayout.Props.C43_drawn_partial",
    "MplLayout.Props.C43_flipped_counterexample"
   ],
   "note": "Proved for upright axis boxes (bottom below top, left left of right) lying on one side of the axes frame edge; the code violates the property for flipped axis boxes (counterexample theorem)."
  },
  {
   "property": "C44",
   "status": "proved",
   "theorems": [
    "MplLayout.Props.C44_x",
    "MplLayout.Props.C44_y"
   ],
   "note": ""
  },
  {
   "property": "C45",
   "status": "partial",
   "theorems": [
    "MplLayout.Props.C45_measure_partial",
    "MplLayout.Props.C45_restores_partial",
    "MplLayout.Props.C45_counterexample",
    "MplLayout.Props.C45_constraint",
    "MplLayout.Props.C45_constraint_none"
   ],
   "note": "Measured thickness and restoration proved for runs that return; the code violates restoration when a call raises (label left invisible, C45_counterexample)."
  },
  {
   "property": "C46",
   "status": "partial",
   "theorems": [
    "MplLayout.Props.C46_idx_two_dim_partial",
    "MplLayout.Props.C46_idx_one_dim_partial",
    "MplLayout.Props.C46_three_dim_counterexample",
    "MplLayout.Props.C46_exactly"
   ],
   "note": "C46_exactly: the code is right exactly for the shapes in which every dimension of size two or more has at most one such dimension behind it, directly; so for all shapes with at most two dimensions (the only ones the package uses). It violates the property for three larger dimensions (C46_three_dim_counterexample)."
  },
  {
   "property": "C47",
   "status": "partial",
   "theorems": [
    "MplLayout.Props.C47_paired_partial",
    "MplLayout.Props.C47_shipped_partial",
    "MplLayout.Props.C47_lengths_partial",
    "MplLayout.Props.C47_own_arguments_partial",
    "MplLayout.Props.C47_counterexample",
    "MplLayout.Props.C47_counterexample_accepted"
   ],
   "note": "Proved for every history of calls whose constraints fit their arguments (all shipped constraints with parameters of the declared kind, accepted or refused); C47_own_arguments_partial follows one call through any later history. The code violates the full property: a call refused while building its parameter tree leaves a half-stored constraint (C47_counterexample), and a Grid with too few margins is accepted and unpaired (C47_counterexample_accepted)."
  },
  {
   "property": "C48",
   "status": "partial",
   "theorems": [
    "MplLayout.Props.C48_shipped_partial",
    "MplLayout.Props.C48_own_keys_partial",
    "MplLayout.Props.C48_counterexample"
   ],
   "note": "Proved for all histories of shipped constraints on primitives made by the shipped constructors, for constraints that name only parts which the axes have; the constraint's own keys resolve for every history. The code violates the full property: PositionXAxis is accepted on axes without an x axis (C48_counterexample)."
  },
  {
   "property": "C49",
   "status": "partial",
   "theorems": [
    "MplLayout.Props.C49_add_prim",
    "MplLayout.Props.C49_add_constraint_partial",
    "MplLayout.Props.C49_shipped_partial",
    "MplLayout.Props.C49_refused",
    "MplLayout.Props.C49_nothing_lost",
    "MplLayout.Props.C49_counterexample"
   ],
   "note": "Proved for add_prim on any layout; for add_constraint: any layout and constraint when refused by the checks or because the key is taken (C49_refused), and all regular histories; nothing existing is ever lost (C49_nothing_lost). The code violates the full property (C49_counterexample)."
  },
  {
   "property": "C50",
   "status": "partial",
   "theorems": [
    "MplLayout.Props.C50_residual_partial",
    "MplLayout.Props.C50_shipped_partial",
    "MplLayout.Props.C50_counterexample"
   ],
   "note": "Proved for histories with slash-free constraint keys; with nested constraint keys the order is tree order, not the order added (C50_counterexample)."
  },
  {
   "property": "C51",
   "status": "proved",
   "theorems": [
    "MplLayout.Props.C51_auto_terminates",
    "MplLayout.Props.C51_auto_key",
    "MplLayout.Props.C51_explicit_key",
    "MplLayout.Props.C51_distinct"
   ],
   "note": ""
  },
  {
   "property": "C52",
   "status": "partial",
   "theorems": [
    "MplLayout.Props.C52_refreshed_partial",
    "MplLayout.Props.C52_succeeds_partial",
    "MplLayout.Props.C52_counterexample_pairing",
    "MplLayout.Props.C52_counterexample_nested"
   ],
   "note": "Proved for every history of sensible calls with slash-free constraint keys and every axes dictionary: the result is exactly the refreshed layout and still paired, and the call succeeds exactly if every thickness constraint's axes is in the dictionary and measurable. The code violates the full property: constraints below a thickness constraint lose their parameters (C52_counterexample_pairing), and axes below another primitive are looked up by the first key part only (C52_counterexample_nested)."
  },
  {
   "property": "C53",
   "status": "partial",
   "theorems": [
    "MplLayout.Props.C53_shared_partial",
    "MplLayout.Props.C53_call_partial",
    "MplLayout.Props.C53_other_layouts",
    "MplLayout.Props.C53_residual_partial",
    "MplLayout.Props.C53_counterexample"
   ],
   "note": "The code violates the property: the returned layout shares the primitive, constraint and key trees with the original (C53_counterexample: the original's later constraints are evaluated with the wrong parameters). Proved: the exact extent of the sharing for every history (parameters and counter are never shared), that the call itself changes nothing, that unrelated layouts are unaffected, and that the original's residual is unchanged as long as constraints are added at the top level of the new layout only."
  },
  {
   "property": "C54",
   "status": "proved",
   "theorems": [
    "MplLayout.Props.C54_add_prim",
    "MplLayout.Props.C54_history",
    "MplLayout.Props.C54_constraint"
   ],
   "note": ""
  },
  {
   "property": "C55",
   "status": "proved",
   "theorems": [
    "MplLayout.Props.C55_terminates",
    "MplLayout.Props.C55_history",
    "MplLayout.Props.C55_norm"
   ],
   "note": "for all residual functions, numerical routines, tolerances and starting points"
  },
  {
   "property": "C56",
   "status": "partial",
   "theorems": [
    "MplLayout.Props.C56_jax_partial",
    "MplLayout.Props.C56_exactly",
    "MplLayout.Props.C56_counterexample",
    "MplLayout.Props.C56_shipped_partial",
    "MplLayout.Props.C56_satisfied_partial",
    "MplLayout.Props.C56_affine_partial"
   ],
   "note": "With jax's derivatives: exactly the layouts at which jacfwd is finite are left alone (C56_exactly), among them all without measured lines that are single points (C56_jax_partial). The code violates the full property for such lines (C56_counterexample). C56_shipped_partial, C56_affine_partial, C56_satisfied_partial: the same with exact derivatives instead of jax's."
  },
  {
   "property": "C57",
   "status": "proved",
   "theorems": [
    "MplLayout.Props.C57_affine",
    "MplLayout.Props.C57_constraints"
   ],
   "note": "with exact numerics (Spec/Solver Exact; exactNum shows the hypothesis is satisfiable); newton method"
  },
  {
   "property": "C58",
   "status": "proved",
   "theorems": [
    "MplLayout.Props.C58_newton",
    "MplLayout.Props.C58_minimize"
   ],
   "note": "newton unconditionally; minimize for optimizers that keep the number of coordinates"
  },
  {
   "property": "C59",
   "status": "partial",
   "theorems": [
    "MplLayout.Props.C59_dispatch",
    "MplLayout.Props.C59_no_constraints_counterexample",
    "MplLayout.Props.C59_no_iterations_partial"
   ],
   "note": "dispatch proved; a layout without constraints raises ValueError (C59_no_constraints_counterexample); with max_iter <= 0 the geometry is returned"
  },
  {
   "property": "C60",
   "status": "partial",
   "theorems": [
    "MplLayout.Props.C60_history_partial",
    "MplLayout.Props.C60_counterexample"
   ],
   "note": "the histories are faithful, but the entries are sums of squares, not norms (C60_counterexample)"
  },
  {
   "property": "C61",
   "status": "partial",
   "theorems": [
    "MplLayout.Props.C61_lag_partial",
    "MplLayout.Props.C61_counterexample",
    "MplLayout.Props.C61_affine_partial"
   ],
   "note": "false in general (C61_counterexample): the last error is that of the iterate before the returned one (C61_lag_partial); true for affine satisfiable layouts"
  },
  {
   "property": "C62",
   "status": "proved",
   "theorems": [
    "MplLayout.Props.C62_positions",
    "MplLayout.Props.C62_whole",
    "MplLayout.Props.C62_unit_square"
   ],
   "note": ""
  },
  {
   "property": "C63",
   "status": "partial",
   "theorems": [
    "MplLayout.Props.C63_translation_partial",
    "MplLayout.Props.C63_labels_partial",
    "MplLayout.Props.C63_counterexample"
   ],
   "note": "Axes rectangles are translation invariant; axis label coordinates are proved to move with the figure origin only when labels lie as stated; the code does not subtract the figure's corner from label coordinates (C63_counterexample)."
  },
  {
   "property": "C64",
   "status": "proved",
   "theorems": [
    "MplLayout.Props.C64_requested",
    "MplLayout.Props.C64_default",
    "MplLayout.Props.C64_duplicate"
   ],
   "note": "C64_duplicate: a key requested twice creates an orphan axes."
  },
  {
   "property": "C65",
   "status": "partial",
   "theorems": [
    "MplLayout.Props.C65_rotation_partial",
    "MplLayout.Props.C65_violation",
    "MplLayout.Props.C65_counterexample"
   ],
   "note": "Correct for the directions in C65_rotation_partial; the code is wrong for downward slanted lines (C65_violation, C65_counterexample)."
  },
  {
   "property": "C66",
   "status": "proved",
   "theorems": [
    "MplLayout.Props.C66_each_once",
    "MplLayout.Props.C66_opacity",
    "MplLayout.Props.C66_shapes",
    "MplLayout.Props.C66_succeeds"
   ],
   "note": ""
  },
  {
   "property": "C67",
   "status": "proved",
   "theorems": [
    "MplLayout.Props.C67_well_formed",
    "MplLayout.Props.C67_shared",
    "MplLayout.Props.C67_closed"
   ],
   "note": "Proved of programs that add primitives at the top level of the layout (keys without '/'): the tree stays well formed with one array per identity (C67_well_formed), sharing before = sharing after solving, with equal coordinates (C67_shared), and polygons stay closed (C67_closed); for scipy's minimize, the assumption that it returns a vector of the given length (Optimizes)."
  },
  {
   "property": "C68",
   "status": "proved",
   "theorems": [
    "MplLayout.Props.C68_solved",
    "MplLayout.Props.C68_figure",
    "MplLayout.Props.C68_readme"
   ],
   "note": "C68_solved: with exact numerics (Exact: true derivatives, exact least squares, as in C57) every constraint of a program with affine constraints holds exactly of the solution, given that they can be satisfied together; C68_figure: the figure size and the axes positions handed to matplotlib are the requested ones; C68_readme: the program of the README with any number of axes and any sizes and margins, with no satisfiability hypothesis. Numbers are reals, not floats with rounding (DESIGN.md)."
  },
  {
   "property": "C69",
   "status": "proved",
   "theorems": [
    "MplLayout.Props.C69_add_prim",
    "MplLayout.Props.C69_add_constraint",
    "MplLayout.Props.C69_shipped"
   ],
   "note": "C69_add_prim for any layout, key and primitive; C69_add_constraint is an iff for layouts reached by regular calls (constraint trees without duplicate keys whose parameter trees can be built); C69_shipped for every shipped constraint with parameters that make sense (for others see C47_counterexample, C49_counterexample)."
  },
  {
   "property": "C70",
   "status": "proved",
   "theorems": [
    "MplLayout.Props.C70_least_squares",
    "MplLayout.Props.C70_representable",
    "MplLayout.Props.C70_program"
   ],
   "note": "Exact numerics (jacfwd exact where the derivative exists, lstsq the minimum norm least squares solution). C70_program: any program with finite numbers and affine shipped constraints; assumed that the residual at the start has finite entries."
  },
  {
   "property": "C71",
   "status": "proved",
   "theorems": [
    "MplLayout.Props.C71_local_best"
   ],
   "note": "Exact numerics assumed (Spec Exact); Shipped.SmoothAt states where each shipped constraint is differentiable."
  },
  {
   "property": "C72",
   "status": "proved",
   "theorems": [
    "MplLayout.Props.C72_expression",
    "MplLayout.Props.C72_number_counterexample",
    "MplLayout.Props.C72_difference",
    "MplLayout.Props.C72_linear"
   ],
   "note": "C72_expression by induction on expressions (build = Python's operator dispatch, Means = independent value); C72_difference, C72_linear over the reals; C72_number_counterexample: adding a number is annotated but raises AttributeError (outside the statement). Compound operands of + are excluded (C24_compound_counterexample)."
  },
  {
   "property": "C73",
   "status": "proved",
   "theorems": [
    "MplLayout.Props.C73_round_trip",
    "MplLayout.Props.C73_map",
    "MplLayout.Props.C73_map_map",
    "MplLayout.Props.C73_leaves",
    "MplLayout.Props.C73_leaf_count",
    "MplLayout.Props.C73_sorted",
    "MplLayout.Props.C73_common",
    "MplLayout.Props.C73_position_counterexample"
   ],
   "note": "JAX's own tree functions are modelled as documented (dictionaries flattened and rebuilt in sorted key order). C73_position_counterexample: positional access (node[2]) does change for polygons with more than ten edges and axes with twins; the statement only claims key access for those."
  },
  {
   "property": "C74",
   "status": "proved",
   "theorems": [
    "MplLayout.Props.C74_order",
    "MplLayout.Props.C74_demands",
    "MplLayout.Props.C74_repetition"
   ],
   "note": "C74_order, C74_demands and C74_repetition for shipped affine constraints and exact numerics; order and repetition for constraint keys without a slash. Primitives are added in the same order in both histories (same tree)."
  },
  {
   "property": "C75",
   "status": "proved",
   "theorems": [
    "MplLayout.Props.C75_calls",
    "MplLayout.Props.C75_translation"
   ],
   "note": "C75_calls (any constraints), C75_translation (shipped affine constraints except Fix, exact numerics)."
  },
  {
   "property": "C76",
   "status": "proved",
   "theorems": [
    "MplLayout.Props.C76_add_prim",
    "MplLayout.Props.C76_missing",
    "MplLayout.Props.C76_wrong",
    "MplLayout.Props.C76_key",
    "MplLayout.Props.C76_accepted",
    "MplLayout.Props.C76_cases"
   ],
   "note": "C76_add_prim, C76_missing, C76_wrong, C76_key hold on every layout; C76_accepted on layouts made by regular calls; C76_cases shows the cases are exhaustive. Added after mutation L03 (every exception becomes RuntimeError) broke no claim."
  },
  {
   "property": "C77",
   "status": "proved",
   "theorems": [
    "MplLayout.Props.C77_rebuild",
    "MplLayout.Props.C77_solve",
    "MplLayout.Props.C77_thickness"
   ],
   "note": "For shipped constraints added under keys without '/'; a thickness constraint finds its axes by the first part of its primitive key, as the code does (the failures for nested keys are C52). The thickness statement needs exact numerics and satisfiable affine constraints."
  },
  {
   "property": "C78",
   "status": "proved",
   "theorems": [
    "MplLayout.Props.C78_unseen",
    "MplLayout.Props.C78_affine"
   ],
   "note": "Newton's method with exact numerics; for nonlinear constraints differentiability and finite residuals are assumed at the visited geometries. Nothing is said about method='minimize', whose iterates are scipy's choice."
  },
  {
   "property": "C79",
   "status": "proved",
   "theorems": [
    "MplLayout.Props.C79_lookup",
    "MplLayout.Props.C79_places",
    "MplLayout.Props.C79_add",
    "MplLayout.Props.C79_once",
    "MplLayout.Props.C79_cycle",
    "MplLayout.Props.C79_program",
    "MplLayout.Props.C79_add_prim",
    "MplLayout.Props.C79_shared_corner",
    "MplLayout.Props.C79_self"
   ],
   "note": "Full characterization of aliasing; C79_shared_corner and C79_self show behaviour a user may not expect (a key that was not given changes; a layout that recurses forever)."
  },
  {
   "property": "C80",
   "status": "proved",
   "theorems": [
    "MplLayout.Props.C80_independent",
    "MplLayout.Props.C80_extend"
   ],
   "note": "Exact numerics; Newton's method; affine constraints at the top level."
  },
  {
   "property": "C81",
   "status": "proved",
   "theorems": [
    "MplLayout.Props.C81_tutorial"
   ],
   "note": "Exact numerics; Newton's method. The notebook's constraints on the axis labels (PointToLineDistance, PositionXAxisLabel: not affine) are not part of this program; C102 and C103 do both passes of the figure with them. Twin axes are off. Tick sides: for frames of positive size and thicknesses that are not negative (otherwise C43's counterexample)."
  },
  {
   "property": "C82",
   "status": "proved",
   "theorems": [
    "MplLayout.Props.C82_quadratic"
   ],
   "note": "With exact numerics (no rounding). Underdetermined layouts have no regular solution and are not covered."
  },
  {
   "property": "C83",
   "status": "proved",
   "theorems": [
    "MplLayout.Props.C83_anywhere",
    "MplLayout.Props.C83_again",
    "MplLayout.Props.C83_stable"
   ],
   "note": "Exact numerics (no rounding)."
  },
  {
   "property": "C84",
   "status": "proved",
   "theorems": [
    "MplLayout.Props.C84_calls",
    "MplLayout.Props.C84_unique",
    "MplLayout.Props.C84_exists",
    "MplLayout.Props.C84_mirror",
    "MplLayout.Props.C84_drawing"
   ],
   "note": "Existence, uniqueness among upright geometries, drawing and success of all calls, for every grid shape; C84_mirror shows that the upright hypothesis is needed. Convergence of the solver to it is not part of the claim (see C82)."
  },
  {
   "property": "C85",
   "status": "proved",
   "theorems": [
    "MplLayout.Props.C85_satisfied",
    "MplLayout.Props.C85_calls",
    "MplLayout.Props.C85_solution",
    "MplLayout.Props.C85_solved",
    "MplLayout.Props.C85_drawing"
   ],
   "note": "Constraint, calls, solution set and drawing for all shipped constraints; solved geometry for affine constraints with exact numerics (no rounding). The warning of find_axis_position has an absolute tolerance and is not part of the claim."
  },
  {
   "property": "C86",
   "status": "proved",
   "theorems": [
    "MplLayout.Props.C86_mixture"
   ],
   "note": "C86_mixture: for exact numerics (Exact num: solve returns the least-squares step of minimum norm); constraints are the affine ones (Shipped.IsAffine)."
  },
  {
   "property": "C87",
   "status": "proved",
   "theorems": [
    "MplLayout.Props.C87_already_met",
    "MplLayout.Props.C87_monotone"
   ],
   "note": "C87_already_met, C87_monotone: exact numerics, affine constraints (Shipped.IsAffine), constraint keys without a slash."
  },
  {
   "property": "C88",
   "status": "partial",
   "theorems": [
    "MplLayout.Props.C88_accepted",
    "MplLayout.Props.C88_rejected",
    "MplLayout.Props.C88_point_partial",
    "MplLayout.Props.C88_counterexample",
    "MplLayout.Props.C88_jax_counterexample",
    "MplLayout.Props.C88_agrees"
   ],
   "note": "C88_accepted/C88_rejected classify every outcome. The property as stated is false of the code: values of more dimensions are accepted (C88_counterexample) and jax arrays are always rejected (C88_jax_counterexample); C88_point_partial is the one-dimensional case."
  },
  {
   "property": "C89",
   "status": "proved",
   "theorems": [
    "MplLayout.Props.C89_rounding"
   ],
   "note": "Exact arithmetic except for the Newton steps, whose errors are arbitrary within the bounds."
  },
  {
   "property": "C90",
   "status": "proved",
   "theorems": [
    "MplLayout.Props.C90_calls",
    "MplLayout.Props.C90_solve",
    "MplLayout.Props.C90_drawing",
    "MplLayout.Props.C90_axes_names"
   ],
   "note": "C90_calls needs only that the renaming is one; C90_solve is for layouts whose constraint calls fit and whose keys do not dangle (C47/C48 say when), since otherwise a KeyError shows the old name; C90_axes_names shows why drawing without listed axes depends on the names"
  },
  {
   "property": "C91",
   "status": "proved",
   "theorems": [
    "MplLayout.Props.C91_colors",
    "MplLayout.Props.C91_same_color",
    "MplLayout.Props.C91_labels"
   ],
   "note": "colour map and fonts are matplotlib's; the rotation itself is C65"
  },
  {
   "property": "C92",
   "status": "partial",
   "theorems": [
    "MplLayout.Props.C92_behaviour",
    "MplLayout.Props.C92_array_partial",
    "MplLayout.Props.C92_counterexample"
   ],
   "note": "Holds for vectors without child nodes. The code violates it for trees: entries are returned twice, those of grandchildren are lost (C92_counterexample); C92_behaviour states exactly what is returned."
  },
  {
   "property": "C93",
   "status": "proved",
   "theorems": [
    "MplLayout.Props.C93_calls",
    "MplLayout.Props.C93_placed",
    "MplLayout.Props.C93_demands",
    "MplLayout.Props.C93_solutions",
    "MplLayout.Props.C93_anywhere",
    "MplLayout.Props.C93_exists",
    "MplLayout.Props.C93_solve",
    "MplLayout.Props.C93_drawing",
    "MplLayout.Props.C93_labels",
    "MplLayout.Props.C93_ticks",
    "MplLayout.Props.C93_twin_axes",
    "MplLayout.Props.C93_two_axes",
    "MplLayout.Props.C93_one_axes",
    "MplLayout.Props.C93_contour_colorbar",
    "MplLayout.Props.C93_ten_rules"
   ],
   "note": "For demands whose direction comes from a box (alignment, grids, Collinear, distance to an edge, label positions) that box must not be degenerate, see C36; numerics of solve exact as in C68."
  },
  {
   "property": "C94",
   "status": "partial",
   "theorems": [
    "MplLayout.Props.C94_reuse_partial",
    "MplLayout.Props.C94_made",
    "MplLayout.Props.C94_deep_counterexample"
   ],
   "note": "Proved for all programs whose constraint keys have no '/' (C94_reuse_partial). For keys with '/' the property is false of the code: C94_deep_counterexample."
  },
  {
   "property": "C95",
   "status": "partial",
   "theorems": [
    "MplLayout.Props.C95_names",
    "MplLayout.Props.C95_opposite",
    "MplLayout.Props.C95_shapes",
    "MplLayout.Props.C95_marginArray_partial",
    "MplLayout.Props.C95_marginArray_counterexample",
    "MplLayout.Props.C95_positionAxis_partial",
    "MplLayout.Props.C95_thickness_partial",
    "MplLayout.Props.C95_thickness_counterexample",
    "MplLayout.Props.C95_positionAxis_counterexample",
    "MplLayout.Props.C95_refresh_counterexample"
   ],
   "note": "Proved for the sides, dimensions, axis labels, opposite_side and grid shapes (C95_names, C95_opposite, C95_shapes), and for documented values of the other options (C95_*_partial). For undocumented values of these the property is false of the code: C95_*_counterexample."
  },
  {
   "property": "C96",
   "status": "proved",
   "theorems": [
    "MplLayout.Props.C96_finite",
    "MplLayout.Props.C96_finite_is_jacobian",
    "MplLayout.Props.C96_smooth",
    "MplLayout.Props.C96_exact",
    "MplLayout.Props.C96_values",
    "MplLayout.Props.C96_shape",
    "MplLayout.Props.C96_jump",
    "MplLayout.Props.C96_dot",
    "MplLayout.Props.C96_newton_stays",
    "MplLayout.Props.C96_newton_quadratic",
    "MplLayout.Props.C96_newton_transfer"
   ],
   "note": "Exact arithmetic. The derivative rules of jax are part of the model (Model/Dual)."
  },
  {
   "property": "C97",
   "status": "proved",
   "theorems": [
    "MplLayout.Props.C97_finite_is_gradient",
    "MplLayout.Props.C97_gradient",
    "MplLayout.Props.C97_transposed",
    "MplLayout.Props.C97_values",
    "MplLayout.Props.C97_downhill",
    "MplLayout.Props.C97_stationary",
    "MplLayout.Props.C97_minimize_stays",
    "MplLayout.Props.C97_tolerance_counterexample",
    "MplLayout.Props.C97_forward",
    "MplLayout.Props.C97_dot"
   ],
   "note": "Proved for all programs of shipped constraints and all coordinate vectors, in reverse mode (recorded tangents and backward pass). C97_minimize_stays and C97_tolerance_counterexample assume of the optimizer only that it reports nothing where the gradient it is given is at most tol (StopsAtGradient)."
  },
  {
   "property": "C98",
   "status": "partial",
   "theorems": [
    "MplLayout.Props.C98_repr_partial",
    "MplLayout.Props.C98_alike",
    "MplLayout.Props.C98_counterexample"
   ],
   "note": "Proved as an equivalence for class names and printed values without '(' (all primitives; construction values print tuples) and keys without ',' and ')'. C98_alike holds for all nodes. C98_counterexample: keys with ', ' make different nodes print alike, so the unrestricted claim is false of the code."
  },
  {
   "property": "C99",
   "status": "proved",
   "theorems": [
    "MplLayout.Props.C99_coincident",
    "MplLayout.Props.C99_coincidentLines",
    "MplLayout.Props.C99_horizontal",
    "MplLayout.Props.C99_vertical",
    "MplLayout.Props.C99_box",
    "MplLayout.Props.C99_fix",
    "MplLayout.Props.C99_xLength",
    "MplLayout.Props.C99_yLength",
    "MplLayout.Props.C99_xDistance",
    "MplLayout.Props.C99_yDistance",
    "MplLayout.Props.C99_width",
    "MplLayout.Props.C99_height",
    "MplLayout.Props.C99_margin",
    "MplLayout.Props.C99_ieee",
    "MplLayout.Props.C99_products_underflow",
    "MplLayout.Props.C99_flush_to_zero",
    "MplLayout.Props.C99_align",
    "MplLayout.Props.C99_rectilinearGrid",
    "MplLayout.Props.C99_outerMarginArray",
    "MplLayout.Props.C99_coincidentOutwardFaces",
    "MplLayout.Props.C99_positionAxis",
    "MplLayout.Props.C99_positionAxis_twin",
    "MplLayout.Props.C99_unit",
    "MplLayout.Props.C99_squares",
    "MplLayout.Props.C99_length",
    "MplLayout.Props.C99_relativeLength",
    "MplLayout.Props.C99_grid",
    "MplLayout.Props.C99_squares64",
    "MplLayout.Props.C99_conversion",
    "MplLayout.Props.C99_single_precision"
   ],
   "note": "For every format with monotone rounding and gradual underflow; float64/float32 (round to nearest, ties to even) are shown to be such formats (C99_ieee). The exceptions are proved as counterexamples: products underflow (C99_products_underflow, finding 33), flush-to-zero hardware (C99_flush_to_zero). The elementary functions are modelled as exactly rounded but nothing is claimed about them. The conversion of 64-bit coordinates to jax's default 32 bits is C99_conversion; what it loses, C99_single_precision (finding 34). Compound constraints: C99_align, C99_rectilinearGrid (every grid shape), C99_outerMarginArray (every length), C99_coincidentOutwardFaces, C99_positionAxis(_twin); C99_unit gives simple sufficient conditions for the first two. Lengths: C99_length, C99_relativeLength and C99_grid under the condition C99_squares (C99_squares64 for float64: sizes from 2^-500 to 2^500). In C99_relativeLength the multiple is stated as minus the rounded product with the negated length, which is what the code computes; no symmetry of rounding is assumed."
  },
  {
   "property": "C100",
   "status": "proved",
   "theorems": [
    "MplLayout.Props.C100_left_alone",
    "MplLayout.Props.C100_all_constraints"
   ],
   "note": "For every floating point format. Assumptions in the statement: numpy.linalg.lstsq maps a zero right hand side to zero (Numerics.ZeroForZero), jax's derivatives at the layout are finite (they are not for zero-length measured lines, see C56_counterexample). Constraints added below others (nested keys) are not covered by C100_all_constraints, but by C100_left_alone."
  },
  {
   "property": "C101",
   "status": "proved",
   "theorems": [
    "MplLayout.Props.C101_first_step",
    "MplLayout.Props.C101_aspect_step",
    "MplLayout.Props.C101_aspect_counterexample",
    "MplLayout.Props.C101_onestep",
    "MplLayout.Props.C101_upright",
    "MplLayout.Props.C101_two_axes",
    "MplLayout.Props.C101_contour",
    "MplLayout.Props.C101_ten_rules",
    "MplLayout.Props.C101_grid_axes",
    "MplLayout.Props.C101_profile",
    "MplLayout.Props.C101_profile_flipped"
   ],
   "note": "Numerics exact as in C68. The lines that are measured (by lengths, ratios, squares and grids) must not be points, since the derivative of a length does not exist there; other boxes may be flat, such as axis boxes in the first pass. Aspect ratios other than 1 are covered for the first iteration only (C101_first_step), after which they need not hold (C101_aspect_counterexample); distances to an edge and label positions are C102's."
  },
  {
   "property": "C102",
   "status": "proved",
   "theorems": [
    "MplLayout.Props.C102_twostep",
    "MplLayout.Props.C102_tutorial"
   ],
   "note": "Numerics exact as in C68. The demands other than label positions must determine the frames that carry labels; alignments, lengths and ratios (C101) are not mixed in. The label must also be placeable at the given number (First), which holds whenever its coordinate along the axis is only constrained by its own position."
  },
  {
   "property": "C103",
   "status": "proved",
   "theorems": [
    "MplLayout.Props.C103_update",
    "MplLayout.Props.C103_tutorial",
    "MplLayout.Props.C103_ten_rules"
   ],
   "note": "Numerics exact as in C68 for the notebooks (the general statement holds for any numerics). The measured axes have their ticks on one side (otherwise C45's counterexample); in the tutorial, thicknesses are not negative for the sides of the ticks (C43)."
  },
  {
   "property": "C104",
   "status": "proved",
   "theorems": [
    "MplLayout.Props.C104_steps",
    "MplLayout.Props.C104_heights",
    "MplLayout.Props.C104_converges",
    "MplLayout.Props.C104_turned",
    "MplLayout.Props.C104_never_counterexample"
   ],
   "note": "Numerics exact as in C68. Nothing is claimed if some height of the recursion is 0 (then the next derivative does not exist). C104_never_counterexample is a counterexample to the wish that solve finds every box that exists, not to C104."
  }
 ]
}