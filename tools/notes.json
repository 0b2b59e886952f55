{
 "C06": {
  "status": "partial",
  "note": "Proved for keys without empty components; for 'b/' and '/x' the code violates the property (C06_trailing_slash, C06_leading_slash)."
 },
 "C07": {
  "status": "partial",
  "note": "Exact characterisation of membership for keys without empty components; the code violates the full property: it raises for a missing ancestor (C07_raises) and answers True for 'b/' (C07_trailing_slash)."
 },
 "C02": {
  "note": "For trees whose child keys contain no '/' (all trees built with add_child, C04_add_child_good); collision otherwise: C02_slash_collision."
 },
 "C16": {
  "status": "partial",
  "note": "Default axes have exactly the requested parts; supplied primitives are all used when their number matches. The code violates 'all used or rejected' (C16_surplus_dropped, C16_missing_accepted): zip truncates."
 },
 "C15": {
  "note": "Any class table with sensible signatures, and the shipped classes spelled out; note C15_line_drops_extra: Line ignores a third supplied primitive (its children still match)."
 },
 "C17": {
  "note": "For trees with '/'-free keys; the identity function must determine the value inside the tree (IdentOK), which Python's id does."
 },
 "C18": {
  "note": "For trees with '/'-free keys; the identity function must determine the value inside the tree (IdentOK), which Python's id does."
 },
 "C19": {
  "note": "For trees with '/'-free keys; the identity function must determine the value inside the tree (IdentOK), which Python's id does."
 },
 "C21": {
  "status": "partial",
  "note": "Proved whenever every child is assigned keys and parameters (Aligned). The code violates the full property for a Grid with too few margins, where parameters shift to other nodes (C21_grid_too_few_margins)."
 },
 "C24": {
  "status": "partial",
  "note": "Proved when the second operand's children take no primitives (all leaf constructions), and for compound operands on the same primitives (C24_shared_partial, C24_same_primitives_partial: all shipped compound constructions). False of the code for compound second operands on other primitives: Width()+Width() (C24_compound_counterexample)."
 },
 "C26": {
  "status": "partial",
  "note": "Proved for every tree in which declared and supplied parameter counts agree, for numbers, Scalar() and negation; the code violates the property for Scalar()*2.0, which raises AttributeError (C26_scalar_times_number)."
 },
 "C27": {
  "note": "For every tree in which declared and supplied parameter counts agree; division over the reals for nonzero divisors."
 },
 "C28": {
  "status": "partial",
  "note": "Proved for 1..all frozen parameters (and for none if the construction has no parameters); the code violates the property for none frozen otherwise (C28_none_frozen_counterexample)."
 },
 "C29": {
  "status": "partial",
  "note": "Numbers: constructions whose children are leaves; arrays: leaf constructions. The code violates the property for arrays on compounds and for deeper trees (C29_compound_array_counterexample, C29_deep_counterexample)."
 },
 "C30": {
  "note": "For constructions with at least one primitive and 1+M <= N."
 },
 "C40": {
  "status": "partial",
  "note": "Proved: the value is the difference of polar angles, equal to the counter-clockwise angle up to one full turn, and the satisfied constraint rotates the first direction into the second. The code violates the range (-pi, pi] (C40_out_of_range counterexample)."
 },
 "C36": {
  "status": "partial",
  "note": "Proved when the first line is nondegenerate; the code violates the property for a degenerate first line (C36_degenerate_counterexample)."
 },
 "C46": {
  "status": "partial",
  "note": "C46_exactly: the code is right exactly for the shapes in which every dimension of size two or more has at most one such dimension behind it, directly; so for all shapes with at most two dimensions (the only ones the package uses). It violates the property for three larger dimensions (C46_three_dim_counterexample)."
 },
 "C37": {
  "note": "For shapes with positive number of rows and columns and rectangles of nonzero size."
 },
 "C38": {
  "note": "For shapes with positive number of rows and columns and rectangles of nonzero size."
 },
 "C42": {
  "status": "proved",
  "note": "Every shipped constraint class (with its parameters) on planar primitives; C42_fix_moves shows Fix is the exception."
 },
 "C43": {
  "status": "partial",
  "note": "Proved for upright axis boxes (bottom below top, left left of right) lying on one side of the axes frame edge; the code violates the property for flipped axis boxes (counterexample theorem)."
 },
 "C44": {
  "status": "proved",
  "note": ""
 },
 "C45": {
  "status": "partial",
  "note": "Measured thickness and restoration proved for runs that return; the code violates restoration when a call raises (label left invisible, C45_counterexample)."
 },
 "C62": {
  "status": "proved",
  "note": ""
 },
 "C63": {
  "status": "partial",
  "note": "Axes rectangles are translation invariant; axis label coordinates are proved to move with the figure origin only when labels lie as stated; the code does not subtract the figure's corner from label coordinates (C63_counterexample)."
 },
 "C64": {
  "status": "proved",
  "note": "C64_duplicate: a key requested twice creates an orphan axes."
 },
 "C65": {
  "status": "partial",
  "note": "Correct for the directions in C65_rotation_partial; the code is wrong for downward slanted lines (C65_violation, C65_counterexample)."
 },
 "C66": {
  "status": "proved",
  "note": ""
 },
 "C47": {
  "status": "partial",
  "note": "Proved for every history of calls whose constraints fit their arguments (all shipped constraints with parameters of the declared kind, accepted or refused); C47_own_arguments_partial follows one call through any later history. The code violates the full property: a call refused while building its parameter tree leaves a half-stored constraint (C47_counterexample), and a Grid with too few margins is accepted and unpaired (C47_counterexample_accepted)."
 },
 "C48": {
  "status": "partial",
  "note": "Proved for all histories of shipped constraints on primitives made by the shipped constructors, for constraints that name only parts which the axes have; the constraint's own keys resolve for every history. The code violates the full property: PositionXAxis is accepted on axes without an x axis (C48_counterexample)."
 },
 "C49": {
  "status": "partial",
  "note": "Proved for add_prim on any layout; for add_constraint: any layout and constraint when refused by the checks or because the key is taken (C49_refused), and all regular histories; nothing existing is ever lost (C49_nothing_lost). The code violates the full property (C49_counterexample)."
 },
 "C50": {
  "status": "partial",
  "note": "Proved for histories with slash-free constraint keys; with nested constraint keys the order is tree order, not the order added (C50_counterexample)."
 },
 "C51": {
  "status": "proved",
  "note": ""
 },
 "C54": {
  "status": "proved",
  "note": ""
 },
 "C52": {
  "status": "partial",
  "note": "Proved for every history of sensible calls with slash-free constraint keys and every axes dictionary: the result is exactly the refreshed layout and still paired, and the call succeeds exactly if every thickness constraint's axes is in the dictionary and measurable. The code violates the full property: constraints below a thickness constraint lose their parameters (C52_counterexample_pairing), and axes below another primitive are looked up by the first key part only (C52_counterexample_nested)."
 },
 "C53": {
  "status": "partial",
  "note": "The code violates the property: the returned layout shares the primitive, constraint and key trees with the original (C53_counterexample: the original's later constraints are evaluated with the wrong parameters). Proved: the exact extent of the sharing for every history (parameters and counter are never shared), that the call itself changes nothing, that unrelated layouts are unaffected, and that the original's residual is unchanged as long as constraints are added at the top level of the new layout only."
 },
 "C55": {
  "status": "proved",
  "note": "for all residual functions, numerical routines, tolerances and starting points"
 },
 "C56": {
  "status": "partial",
  "note": "With jax's derivatives: exactly the layouts at which jacfwd is finite are left alone (C56_exactly), among them all without measured lines that are single points (C56_jax_partial). The code violates the full property for such lines (C56_counterexample). C56_shipped_partial, C56_affine_partial, C56_satisfied_partial: the same with exact derivatives instead of jax's."
 },
 "C57": {
  "status": "proved",
  "note": "with exact numerics (Spec/Solver Exact; exactNum shows the hypothesis is satisfiable); newton method"
 },
 "C58": {
  "status": "proved",
  "note": "newton unconditionally; minimize for optimizers that keep the number of coordinates"
 },
 "C59": {
  "status": "partial",
  "note": "dispatch proved; a layout without constraints raises ValueError (C59_no_constraints_counterexample); with max_iter <= 0 the geometry is returned"
 },
 "C60": {
  "status": "partial",
  "note": "the histories are faithful, but the entries are sums of squares, not norms (C60_counterexample)"
 },
 "C61": {
  "status": "partial",
  "note": "false in general (C61_counterexample): the last error is that of the iterate before the returned one (C61_lag_partial); true for affine satisfiable layouts"
 },
 "C31": {
  "status": "partial",
  "note": "Proved for every shipped constraint that contains no CoincidentLines, of every grid size, on well-formed plane primitives and parameters of sensible sizes (C31_sizes_partial), with the length of the whole residual (C31_residual_length_partial), and for the leaf constructions. Missing: CoincidentLines (and CoincidentOutwardFaces, PositionXAxis/YAxis, which contain it) declare 2 entries and return 4, so the full claim is false of the code (C31_counterexample)."
 },
 "C67": {
  "status": "proved",
  "note": "Proved of programs that add primitives at the top level of the layout (keys without '/'): the tree stays well formed with one array per identity (C67_well_formed), sharing before = sharing after solving, with equal coordinates (C67_shared), and polygons stay closed (C67_closed); for scipy's minimize, the assumption that it returns a vector of the given length (Optimizes)."
 },
 "C68": {
  "status": "proved",
  "note": "C68_solved: with exact numerics (Exact: true derivatives, exact least squares, as in C57) every constraint of a program with affine constraints holds exactly of the solution, given that they can be satisfied together; C68_figure: the figure size and the axes positions handed to matplotlib are the requested ones; C68_readme: the program of the README with any number of axes and any sizes and margins, with no satisfiability hypothesis. Numbers are reals, not floats with rounding (DESIGN.md)."
 },
 "C69": {
  "status": "proved",
  "note": "C69_add_prim for any layout, key and primitive; C69_add_constraint is an iff for layouts reached by regular calls (constraint trees without duplicate keys whose parameter trees can be built); C69_shipped for every shipped constraint with parameters that make sense (for others see C47_counterexample, C49_counterexample)."
 },
 "C70": {
  "status": "proved",
  "note": "Exact numerics (jacfwd exact where the derivative exists, lstsq the minimum norm least squares solution). C70_program: any program with finite numbers and affine shipped constraints; assumed that the residual at the start has finite entries."
 },
 "C71": {
  "status": "proved",
  "note": "Exact numerics assumed (Spec Exact); Shipped.SmoothAt states where each shipped constraint is differentiable."
 },
 "C72": {
  "status": "proved",
  "note": "C72_expression by induction on expressions (build = Python's operator dispatch, Means = independent value); C72_difference, C72_linear over the reals; C72_number_counterexample: adding a number is annotated but raises AttributeError (outside the statement). Compound operands of + are excluded (C24_compound_counterexample)."
 },
 "C73": {
  "status": "proved",
  "note": "JAX's own tree functions are modelled as documented (dictionaries flattened and rebuilt in sorted key order). C73_position_counterexample: positional access (node[2]) does change for polygons with more than ten edges and axes with twins; the statement only claims key access for those."
 },
 "C74": {
  "status": "proved",
  "note": "C74_order, C74_demands and C74_repetition for shipped affine constraints and exact numerics; order and repetition for constraint keys without a slash. Primitives are added in the same order in both histories (same tree)."
 },
 "C75": {
  "status": "proved",
  "note": "C75_calls (any constraints), C75_translation (shipped affine constraints except Fix, exact numerics)."
 },
 "C76": {
  "status": "proved",
  "note": "C76_add_prim, C76_missing, C76_wrong, C76_key hold on every layout; C76_accepted on layouts made by regular calls; C76_cases shows the cases are exhaustive. Added after mutation L03 (every exception becomes RuntimeError) broke no claim."
 },
 "C77": {
  "status": "proved",
  "note": "For shipped constraints added under keys without '/'; a thickness constraint finds its axes by the first part of its primitive key, as the code does (the failures for nested keys are C52). The thickness statement needs exact numerics and satisfiable affine constraints."
 },
 "C78": {
  "status": "proved",
  "note": "Newton's method with exact numerics; for nonlinear constraints differentiability and finite residuals are assumed at the visited geometries. Nothing is said about method='minimize', whose iterates are scipy's choice."
 },
 "C79": {
  "status": "proved",
  "note": "Full characterization of aliasing; C79_shared_corner and C79_self show behaviour a user may not expect (a key that was not given changes; a layout that recurses forever)."
 },
 "C80": {
  "status": "proved",
  "note": "Exact numerics; Newton's method; affine constraints at the top level."
 },
 "C81": {
  "status": "proved",
  "note": "Exact numerics; Newton's method. The notebook's constraints on the axis labels (PointToLineDistance, PositionXAxisLabel: not affine) are not part of this program; C102 and C103 do both passes of the figure with them. Twin axes are off. Tick sides: for frames of positive size and thicknesses that are not negative (otherwise C43's counterexample)."
 },
 "C82": {
  "status": "proved",
  "note": "With exact numerics (no rounding). Underdetermined layouts have no regular solution and are not covered."
 },
 "C83": {
  "status": "proved",
  "note": "Exact numerics (no rounding)."
 },
 "C84": {
  "status": "proved",
  "note": "Existence, uniqueness among upright geometries, drawing and success of all calls, for every grid shape; C84_mirror shows that the upright hypothesis is needed. Convergence of the solver to it is not part of the claim (see C82)."
 },
 "C85": {
  "status": "proved",
  "note": "Constraint, calls, solution set and drawing for all shipped constraints; solved geometry for affine constraints with exact numerics (no rounding). The warning of find_axis_position has an absolute tolerance and is not part of the claim."
 },
 "C86": {
  "status": "proved",
  "note": "C86_mixture: for exact numerics (Exact num: solve returns the least-squares step of minimum norm); constraints are the affine ones (Shipped.IsAffine)."
 },
 "C87": {
  "status": "proved",
  "note": "C87_already_met, C87_monotone: exact numerics, affine constraints (Shipped.IsAffine), constraint keys without a slash."
 },
 "C88": {
  "status": "partial",
  "note": "C88_accepted/C88_rejected classify every outcome. The property as stated is false of the code: values of more dimensions are accepted (C88_counterexample) and jax arrays are always rejected (C88_jax_counterexample); C88_point_partial is the one-dimensional case."
 },
 "C89": {
  "status": "proved",
  "note": "Exact arithmetic except for the Newton steps, whose errors are arbitrary within the bounds."
 },
 "C90": {
  "status": "proved",
  "note": "C90_calls needs only that the renaming is one; C90_solve is for layouts whose constraint calls fit and whose keys do not dangle (C47/C48 say when), since otherwise a KeyError shows the old name; C90_axes_names shows why drawing without listed axes depends on the names"
 },
 "C91": {
  "status": "proved",
  "note": "colour map and fonts are matplotlib's; the rotation itself is C65"
 },
 "C92": {
  "status": "partial",
  "note": "Holds for vectors without child nodes. The code violates it for trees: entries are returned twice, those of grandchildren are lost (C92_counterexample); C92_behaviour states exactly what is returned."
 },
 "C93": {
  "status": "proved",
  "note": "For demands whose direction comes from a box (alignment, grids, Collinear, distance to an edge, label positions) that box must not be degenerate, see C36; numerics of solve exact as in C68."
 },
 "C94": {
  "status": "partial",
  "note": "Proved for all programs whose constraint keys have no '/' (C94_reuse_partial). For keys with '/' the property is false of the code: C94_deep_counterexample."
 },
 "C95": {
  "status": "partial",
  "note": "Proved for the sides, dimensions, axis labels, opposite_side and grid shapes (C95_names, C95_opposite, C95_shapes), and for documented values of the other options (C95_*_partial). For undocumented values of these the property is false of the code: C95_*_counterexample."
 },
 "C96": {
  "status": "proved",
  "note": "Exact arithmetic. The derivative rules of jax are part of the model (Model/Dual)."
 },
 "C97": {
  "status": "proved",
  "note": "Proved for all programs of shipped constraints and all coordinate vectors, in reverse mode (recorded tangents and backward pass). C97_minimize_stays and C97_tolerance_counterexample assume of the optimizer only that it reports nothing where the gradient it is given is at most tol (StopsAtGradient)."
 },
 "C98": {
  "status": "partial",
  "note": "Proved as an equivalence for class names and printed values without '(' (all primitives; construction values print tuples) and keys without ',' and ')'. C98_alike holds for all nodes. C98_counterexample: keys with ', ' make different nodes print alike, so the unrestricted claim is false of the code."
 },
 "C99": {
  "status": "proved",
  "note": "For every format with monotone rounding and gradual underflow; float64/float32 (round to nearest, ties to even) are shown to be such formats (C99_ieee). The exceptions are proved as counterexamples: products underflow (C99_products_underflow, finding 33), flush-to-zero hardware (C99_flush_to_zero). The elementary functions are modelled as exactly rounded but nothing is claimed about them. The conversion of 64-bit coordinates to jax's default 32 bits is C99_conversion; what it loses, C99_single_precision (finding 34). Compound constraints: C99_align, C99_rectilinearGrid (every grid shape), C99_outerMarginArray (every length), C99_coincidentOutwardFaces, C99_positionAxis(_twin); C99_unit gives simple sufficient conditions for the first two. Lengths: C99_length, C99_relativeLength and C99_grid under the condition C99_squares (C99_squares64 for float64: sizes from 2^-500 to 2^500). In C99_relativeLength the multiple is stated as minus the rounded product with the negated length, which is what the code computes; no symmetry of rounding is assumed."
 },
 "C100": {
  "status": "proved",
  "note": "For every floating point format. Assumptions in the statement: numpy.linalg.lstsq maps a zero right hand side to zero (Numerics.ZeroForZero), jax's derivatives at the layout are finite (they are not for zero-length measured lines, see C56_counterexample). Constraints added below others (nested keys) are not covered by C100_all_constraints, but by C100_left_alone."
 },
 "C101": {
  "status": "proved",
  "note": "Numerics exact as in C68. The lines that are measured (by lengths, ratios, squares and grids) must not be points, since the derivative of a length does not exist there; other boxes may be flat, such as axis boxes in the first pass. Aspect ratios other than 1 are covered for the first iteration only (C101_first_step), after which they need not hold (C101_aspect_counterexample); distances to an edge and label positions are C102's."
 },
 "C102": {
  "status": "proved",
  "note": "Numerics exact as in C68. The demands other than label positions must determine the frames that carry labels; alignments, lengths and ratios (C101) are not mixed in. The label must also be placeable at the given number (First), which holds whenever its coordinate along the axis is only constrained by its own position."
 },
 "C103": {
  "status": "proved",
  "note": "Numerics exact as in C68 for the notebooks (the general statement holds for any numerics). The measured axes have their ticks on one side (otherwise C45's counterexample); in the tutorial, thicknesses are not negative for the sides of the ticks (C43)."
 },
 "C104": {
  "status": "proved",
  "note": "Numerics exact as in C68. Nothing is claimed if some height of the recursion is 0 (then the next derivative does not exist). C104_never_counterexample is a counterexample to the wish that solve finds every box that exists, not to C104."
 }
}